import Verif.Operations
import Verif.Spec.Operations
import Verif.Props.Zarith
/-
C31 decoding inverts the protocol encoding, C32 decoding is faithful to the signed bytes.
-/
namespace Tezos
open Spec

/-! ### What each parser accepts -/

def Curve.opTag : Curve → UInt8
  | .ed25519 | .bip32Ed25519 => 0
  | .secp256k1 => 1
  | .secp256r1 => 2

theorem curveOfTag_eq {t : UInt8} {c : Curve} :
    curveOfTag t = some c ↔ t = c.opTag ∧ c ≠ .ed25519 := by
  unfold curveOfTag
  constructor
  · intro h
    split at h
    · rename_i ht; simp only [Option.some.injEq] at h; subst h; subst ht; exact ⟨rfl, by simp⟩
    · split at h
      · rename_i ht; simp only [Option.some.injEq] at h; subst h; subst ht; exact ⟨rfl, by simp⟩
      · split at h
        · rename_i ht; simp only [Option.some.injEq] at h; subst h; subst ht; exact ⟨rfl, by simp⟩
        · simp at h
  · rintro ⟨rfl, hc⟩
    cases c <;> simp_all [Curve.opTag]

def Pkh.encode (p : Pkh) : Bytes := p.curve.opTag :: p.hash
def Pkh.WF (p : Pkh) : Prop := p.hash.length = 20 ∧ p.curve ≠ .ed25519

theorem publicKeyHash_ok {i rem : Bytes} {p : Pkh} :
    publicKeyHash i = .ok (rem, p) ↔ i = p.encode ++ rem ∧ p.WF := by
  unfold publicKeyHash
  simp only [ebind_ok, Prod.exists, nU8_ok, nTake_ok]
  constructor
  · rintro ⟨r1, t, rfl, r2, h, ⟨rfl, hl⟩, hm⟩
    split at hm
    · simp at hm
    · rename_i c hc
      simp only [ePure, Except.ok.injEq, Prod.mk.injEq] at hm
      obtain ⟨rfl, rfl⟩ := hm
      obtain ⟨rfl, hne⟩ := curveOfTag_eq.mp hc
      exact ⟨rfl, hl, hne⟩
  · rintro ⟨rfl, hl, hne⟩
    refine ⟨p.hash ++ rem, p.curve.opTag, rfl, rem, p.hash, ⟨rfl, hl⟩, ?_⟩
    rw [curveOfTag_eq.mpr ⟨rfl, hne⟩]
    rfl

def keyLen (c : Curve) : Nat := if c.opTag = 0 then 32 else 33

theorem publicKey_ok {i rem : Bytes} {p : Curve × Bytes} :
    publicKey i = .ok (rem, p) ↔
      i = p.1.opTag :: p.2 ++ rem ∧ p.2.length = keyLen p.1 ∧ p.1 ≠ .ed25519 := by
  obtain ⟨c, k⟩ := p
  unfold publicKey
  simp only [ebind_ok, Prod.exists, nU8_ok]
  constructor
  · rintro ⟨r1, t, rfl, hm⟩
    split at hm
    · simp at hm
    · rename_i c' hc
      simp only [ebind_ok, Prod.exists, nTake_ok, ePure, Except.ok.injEq, Prod.mk.injEq] at hm
      obtain ⟨r2, k', ⟨rfl, hl⟩, rfl, rfl, rfl⟩ := hm
      obtain ⟨rfl, hne⟩ := curveOfTag_eq.mp hc
      exact ⟨rfl, hl, hne⟩
  · rintro ⟨rfl, hl, hne⟩
    refine ⟨k ++ rem, c.opTag, rfl, ?_⟩
    rw [curveOfTag_eq.mpr ⟨rfl, hne⟩]
    simp only [ebind_ok, Prod.exists, nTake_ok]
    exact ⟨rem, k, ⟨rfl, hl⟩, rfl⟩

theorem boolean_ok {i rem : Bytes} {b : Bool} :
    boolean i = .ok (rem, b) ↔ ∃ x : UInt8, i = x :: rem ∧ (x == 255) = b := by
  unfold boolean
  simp only [ebind_ok, Prod.exists, nU8_ok, ePure, Except.ok.injEq, Prod.mk.injEq]
  constructor
  · rintro ⟨r, x, rfl, rfl, rfl⟩; exact ⟨x, rfl, rfl⟩
  · rintro ⟨x, rfl, rfl⟩; exact ⟨rem, x, rfl, rfl, rfl⟩

/-- Encoding of an optional field when the byte for "absent" is `flag`. -/
def encodeOptionWith {α : Type} (flag : UInt8) (enc : α → Bytes) : Option α → Bytes
  | none => [flag]
  | some a => 0xFF :: enc a

/-- Optional fields: the flag byte and the field. -/
theorem nCond_ok {α : Type} {p : Bytes → PRes α} {enc : α → Bytes} {wf : α → Prop}
    (hp : ∀ i rem a, p i = .ok (rem, a) ↔ i = enc a ++ rem ∧ wf a) {i rem : Bytes} {o : Option α} :
    (∃ r b, boolean i = .ok (r, b) ∧ nCond b p r = .ok (rem, o)) ↔
      (∃ flag : UInt8, flag ≠ 255 ∧ i = encodeOptionWith flag enc o ++ rem) ∧ validOption wf o := by
  simp only [boolean_ok]
  constructor
  · rintro ⟨r, b, ⟨x, rfl, hb⟩, hc⟩
    unfold nCond at hc
    cases b with
    | true =>
      simp only [if_true, ebind_ok, Prod.exists, ePure, Except.ok.injEq, Prod.mk.injEq] at hc
      obtain ⟨r', a, hpa, rfl, rfl⟩ := hc
      obtain ⟨rfl, hw⟩ := (hp _ _ _).mp hpa
      have hx : x = 255 := by simpa using hb
      subst hx
      exact ⟨⟨0, by decide, rfl⟩, hw⟩
    | false =>
      simp only [Bool.false_eq_true, if_false, Except.ok.injEq, Prod.mk.injEq] at hc
      obtain ⟨rfl, rfl⟩ := hc
      exact ⟨⟨x, by simpa using hb, rfl⟩, trivial⟩
  · rintro ⟨⟨flag, hf, rfl⟩, hw⟩
    cases o with
    | none =>
      refine ⟨rem, false, ⟨flag, rfl, by simpa using hf⟩, ?_⟩
      simp [nCond]
    | some a =>
      refine ⟨enc a ++ rem, true, ⟨255, rfl, rfl⟩, ?_⟩
      simp only [nCond, if_true]
      rw [(hp _ _ _).mpr ⟨rfl, hw⟩]
      rfl

theorem nLenBytes_ok {i rem b : Bytes} :
    nLenBytes i = .ok (rem, b) ↔ i = withLength b ++ rem ∧ b.length < 2 ^ 32 := by
  unfold nLenBytes withLength
  simp only [ebind_ok, Prod.exists, nBeU32_ok, nTake_ok]
  constructor
  · rintro ⟨r, len, rfl, rfl, hl⟩
    have := len.toNat_lt
    refine ⟨?_, by omega⟩
    rw [hl]
    simp
  · rintro ⟨rfl, hl⟩
    refine ⟨b ++ rem, UInt32.ofNat b.length, by simp, rfl, ?_⟩
    simp only [UInt32.toNat_ofNat']
    omega

def ContractID.encode (pad : UInt8) : ContractID → Bytes
  | .implicit p => 0 :: p.encode
  | .originated h => 1 :: (h ++ [pad])

def ContractID.WF : ContractID → Prop
  | .implicit p => p.WF
  | .originated h => h.length = 20

theorem ContractID.fromBytes_ok {i rem : Bytes} {c : ContractID} :
    ContractID.fromBytes i = .ok (rem, c) ↔ (∃ pad, i = c.encode pad ++ rem) ∧ c.WF := by
  unfold ContractID.fromBytes
  simp only [ebind_ok, Prod.exists, nU8_ok]
  constructor
  · rintro ⟨r, t, rfl, h⟩
    split at h
    · rename_i ht; subst ht
      simp only [ebind_ok, Prod.exists, ePure, Except.ok.injEq, Prod.mk.injEq, publicKeyHash_ok] at h
      obtain ⟨r', p, ⟨rfl, hw⟩, rfl, rfl⟩ := h
      exact ⟨⟨0, rfl⟩, hw⟩
    · split at h
      · rename_i ht; subst ht
        simp only [ebind_ok, Prod.exists, ePure, Except.ok.injEq, Prod.mk.injEq, nTake_ok, nU8_ok] at h
        obtain ⟨r', hash, ⟨rfl, hl⟩, r'', pad, rfl, rfl, rfl⟩ := h
        exact ⟨⟨pad, by simp [ContractID.encode]⟩, hl⟩
      · simp at h
  · rintro ⟨⟨pad, rfl⟩, hw⟩
    cases c with
    | implicit p =>
      refine ⟨p.encode ++ rem, 0, rfl, ?_⟩
      simp only [if_true]
      rw [publicKeyHash_ok.mpr ⟨rfl, hw⟩]
      rfl
    | originated h =>
      refine ⟨h ++ ([pad] ++ rem), 1, by simp [ContractID.encode], ?_⟩
      simp only [show (1 : UInt8) ≠ 0 by decide, if_false, if_true]
      rw [nTake_append' hw]
      rfl

def Entrypoint.encode : Entrypoint → Bytes
  | .default => [0]
  | .root => [1]
  | .do_ => [2]
  | .setDelegate => [3]
  | .removeDelegate => [4]
  | .custom n => 0xFF :: UInt8.ofNat n.length :: n

def Entrypoint.WF : Entrypoint → Prop
  | .custom n => n.length < 256
  | _ => True

theorem Entrypoint.fromBytes_ok {i rem : Bytes} {e : Entrypoint} :
    Entrypoint.fromBytes i = .ok (rem, e) ↔ i = e.encode ++ rem ∧ e.WF := by
  unfold Entrypoint.fromBytes
  simp only [ebind_ok, Prod.exists, nU8_ok]
  constructor
  · rintro ⟨r, t, rfl, h⟩
    split at h
    · rename_i ht; subst ht; simp at h; obtain ⟨rfl, rfl⟩ := h; exact ⟨rfl, trivial⟩
    split at h
    · rename_i ht; subst ht; simp at h; obtain ⟨rfl, rfl⟩ := h; exact ⟨rfl, trivial⟩
    split at h
    · rename_i ht; subst ht; simp at h; obtain ⟨rfl, rfl⟩ := h; exact ⟨rfl, trivial⟩
    split at h
    · rename_i ht; subst ht; simp at h; obtain ⟨rfl, rfl⟩ := h; exact ⟨rfl, trivial⟩
    split at h
    · rename_i ht; subst ht; simp at h; obtain ⟨rfl, rfl⟩ := h; exact ⟨rfl, trivial⟩
    split at h
    · rename_i ht; subst ht
      simp only [ebind_ok, Prod.exists, ePure, Except.ok.injEq, Prod.mk.injEq, nTake_ok, nU8_ok] at h
      obtain ⟨r', len, rfl, r'', name, ⟨rfl, hl⟩, rfl, rfl⟩ := h
      have := len.toNat_lt
      refine ⟨?_, by simp only [Entrypoint.WF]; omega⟩
      simp only [Entrypoint.encode, hl]
      simp
    · simp at h
  · rintro ⟨rfl, hw⟩
    cases e with
    | custom n =>
      refine ⟨UInt8.ofNat n.length :: (n ++ rem), 0xFF, rfl, ?_⟩
      simp only [Entrypoint.WF] at hw
      have hn : (UInt8.ofNat n.length).toNat = n.length := by
        simp only [UInt8.toNat_ofNat']; omega
      simp [hn]
    | _ => exact ⟨rem, _, rfl, rfl⟩

def Parameters.encode (p : Parameters) : Bytes := p.entrypoint.encode ++ withLength p.michelson
def Parameters.WF (p : Parameters) : Prop := p.entrypoint.WF ∧ p.michelson.length < 2 ^ 32

theorem Parameters.fromBytes_ok (i rem : Bytes) (p : Parameters) :
    Parameters.fromBytes i = .ok (rem, p) ↔ i = p.encode ++ rem ∧ p.WF := by
  unfold Parameters.fromBytes
  simp only [ebind_ok, Prod.exists, ePure, Except.ok.injEq, Prod.mk.injEq, Entrypoint.fromBytes_ok,
    nLenBytes_ok]
  constructor
  · rintro ⟨r, e, ⟨rfl, he⟩, r', m, ⟨rfl, hm⟩, rfl, rfl⟩
    exact ⟨by simp [Parameters.encode], he, hm⟩
  · rintro ⟨rfl, he, hm⟩
    exact ⟨_, p.entrypoint, ⟨by simp [Parameters.encode], he⟩, rem, p.michelson, ⟨rfl, hm⟩, rfl, rfl⟩

/-- The bytes of a number as parsed. -/
def Zarith.WF (z : Zarith) : Prop := IsZarith z.bytes ∧ z.isNegative = none

def Manager.encode (m : Manager) : Bytes :=
  m.source.encode ++ m.fee.bytes ++ m.counter.bytes ++ m.gasLimit.bytes ++ m.storageLimit.bytes
def Manager.WF (m : Manager) : Prop :=
  m.source.WF ∧ m.fee.WF ∧ m.counter.WF ∧ m.gasLimit.WF ∧ m.storageLimit.WF

theorem Manager.fromBytes_ok {i rem : Bytes} {m : Manager} :
    Manager.fromBytes i = .ok (rem, m) ↔ i = m.encode ++ rem ∧ m.WF := by
  unfold Manager.fromBytes
  simp only [ebind_ok, Prod.exists, ePure, Except.ok.injEq, Prod.mk.injEq, publicKeyHash_ok,
    Zarith.fromBytes_ok]
  constructor
  · rintro ⟨_, s, ⟨rfl, hs⟩, _, f, ⟨rfl, hf⟩, _, c, ⟨rfl, hc⟩, _, g, ⟨rfl, hg⟩, _, st, ⟨rfl, hst⟩, rfl, rfl⟩
    exact ⟨by simp [Manager.encode], hs, hf, hc, hg, hst⟩
  · rintro ⟨rfl, hs, hf, hc, hg, hst⟩
    exact ⟨_, m.source, ⟨by simp only [Manager.encode, List.append_assoc], hs⟩, _, m.fee, ⟨rfl, hf⟩,
      _, m.counter, ⟨rfl, hc⟩, _, m.gasLimit, ⟨rfl, hg⟩, _, m.storageLimit, ⟨rfl, hst⟩, rfl, rfl⟩

def Transfer.encode (pad flag : UInt8) (t : Transfer) : Bytes :=
  t.manager.encode ++ t.amount.bytes ++ t.destination.encode pad ++
    encodeOptionWith flag Parameters.encode t.parameters
def Transfer.WF (t : Transfer) : Prop :=
  t.manager.WF ∧ t.amount.WF ∧ t.destination.WF ∧ validOption Parameters.WF t.parameters

theorem Transfer.fromBytes_ok {i rem : Bytes} {t : Transfer} :
    Transfer.fromBytes i = .ok (rem, t) ↔
      (∃ pad flag, flag ≠ 255 ∧ i = t.encode pad flag ++ rem) ∧ t.WF := by
  have hopt := fun (r : Bytes) (o : Option Parameters) => nCond_ok Parameters.fromBytes_ok (i := r) (rem := rem) (o := o)
  unfold Transfer.fromBytes
  simp only [ebind_ok, Prod.exists, ePure, Except.ok.injEq, Prod.mk.injEq, Manager.fromBytes_ok,
    Zarith.fromBytes_ok, ContractID.fromBytes_ok]
  constructor
  · rintro ⟨_, m, ⟨rfl, hm⟩, _, a, ⟨rfl, ha⟩, r3, d, ⟨⟨pad, rfl⟩, hd⟩, r, b, hb, r', o, hc, rfl, rfl⟩
    obtain ⟨⟨flag, hf, rfl⟩, hv⟩ := (hopt r3 o).mp ⟨r, b, hb, hc⟩
    exact ⟨⟨pad, flag, hf, by simp [Transfer.encode]⟩, hm, ha, hd, hv⟩
  · rintro ⟨⟨pad, flag, hf, rfl⟩, hm, ha, hd, hv⟩
    obtain ⟨r, b, hb, hc⟩ := (hopt _ t.parameters).mpr ⟨⟨flag, hf, rfl⟩, hv⟩
    exact ⟨_, t.manager, ⟨by simp only [Transfer.encode, List.append_assoc], hm⟩, _, t.amount, ⟨rfl, ha⟩,
      _, t.destination, ⟨⟨pad, rfl⟩, hd⟩, r, b, hb, rem, t.parameters, hc, rfl, rfl⟩

def Delegation.encode (flag : UInt8) (d : Delegation) : Bytes :=
  d.manager.encode ++ encodeOptionWith flag Pkh.encode d.delegate
def Delegation.WF (d : Delegation) : Prop := d.manager.WF ∧ validOption Pkh.WF d.delegate

theorem Delegation.fromBytes_ok {i rem : Bytes} {d : Delegation} :
    Delegation.fromBytes i = .ok (rem, d) ↔
      (∃ flag, flag ≠ 255 ∧ i = d.encode flag ++ rem) ∧ d.WF := by
  have hopt := fun (r : Bytes) (o : Option Pkh) =>
    nCond_ok (fun i rem p => publicKeyHash_ok (i := i) (rem := rem) (p := p)) (i := r) (rem := rem) (o := o)
  unfold Delegation.fromBytes
  simp only [ebind_ok, Prod.exists, ePure, Except.ok.injEq, Prod.mk.injEq, Manager.fromBytes_ok]
  constructor
  · rintro ⟨r3, m, ⟨rfl, hm⟩, r, b, hb, r', o, hc, rfl, rfl⟩
    obtain ⟨⟨flag, hf, rfl⟩, hv⟩ := (hopt r3 o).mp ⟨r, b, hb, hc⟩
    exact ⟨⟨flag, hf, by simp [Delegation.encode]⟩, hm, hv⟩
  · rintro ⟨⟨flag, hf, rfl⟩, hm, hv⟩
    obtain ⟨r, b, hb, hc⟩ := (hopt _ d.delegate).mpr ⟨⟨flag, hf, rfl⟩, hv⟩
    exact ⟨_, d.manager, ⟨by simp only [Delegation.encode, List.append_assoc], hm⟩, r, b, hb, rem,
      d.delegate, hc, rfl, rfl⟩

def Origination.encode (flag : UInt8) (o : Origination) : Bytes :=
  o.manager.encode ++ o.balance.bytes ++ encodeOptionWith flag Pkh.encode o.delegate ++
    withLength o.script.code ++ withLength o.script.storage
def Origination.WF (o : Origination) : Prop :=
  o.manager.WF ∧ o.balance.WF ∧ validOption Pkh.WF o.delegate ∧ o.script.code.length < 2 ^ 32 ∧
    o.script.storage.length < 2 ^ 32

theorem Origination.fromBytes_ok {i rem : Bytes} {o : Origination} :
    Origination.fromBytes i = .ok (rem, o) ↔
      (∃ flag, flag ≠ 255 ∧ i = o.encode flag ++ rem) ∧ o.WF := by
  have hopt := fun (r rem : Bytes) (o : Option Pkh) =>
    nCond_ok (fun i rem p => publicKeyHash_ok (i := i) (rem := rem) (p := p)) (i := r) (rem := rem) (o := o)
  unfold Origination.fromBytes Script.fromBytes
  simp only [ebind_ok, Prod.exists, ePure, Except.ok.injEq, Prod.mk.injEq, Manager.fromBytes_ok,
    Zarith.fromBytes_ok, nLenBytes_ok]
  constructor
  · rintro ⟨_, m, ⟨rfl, hm⟩, r3, bal, ⟨rfl, hbal⟩, r, b, hb, r', d, hc, r6, sc,
      ⟨_, code, ⟨rfl, hcode⟩, _, sto, ⟨rfl, hsto⟩, rfl, rfl⟩, rfl, rfl⟩
    obtain ⟨⟨flag, hf, rfl⟩, hv⟩ := (hopt r3 _ d).mp ⟨r, b, hb, hc⟩
    exact ⟨⟨flag, hf, by simp [Origination.encode]⟩, hm, hbal, hv, hcode, hsto⟩
  · rintro ⟨⟨flag, hf, rfl⟩, hm, hbal, hv, hcode, hsto⟩
    obtain ⟨r, b, hb, hc⟩ := (hopt _ (withLength o.script.code ++ (withLength o.script.storage ++ rem))
      o.delegate).mpr ⟨⟨flag, hf, rfl⟩, hv⟩
    exact ⟨_, o.manager, ⟨by simp only [Origination.encode, List.append_assoc], hm⟩, _, o.balance,
      ⟨rfl, hbal⟩, r, b, hb, _, o.delegate, hc, rem, o.script,
      ⟨_, o.script.code, ⟨rfl, hcode⟩, _, o.script.storage, ⟨rfl, hsto⟩, rfl, rfl⟩, rfl, rfl⟩

def Reveal.encode (r : Reveal) : Bytes := r.manager.encode ++ [r.pkCurve.opTag] ++ r.pk
def Reveal.WF (r : Reveal) : Prop :=
  r.manager.WF ∧ r.pk.length = keyLen r.pkCurve ∧ r.pkCurve ≠ .ed25519

theorem Reveal.fromBytes_ok {i rem : Bytes} {r : Reveal} :
    Reveal.fromBytes i = .ok (rem, r) ↔ i = r.encode ++ rem ∧ r.WF := by
  unfold Reveal.fromBytes
  simp only [ebind_ok, ePure, Except.ok.injEq, Manager.fromBytes_ok, Prod.exists, publicKey_ok, Prod.mk.injEq]
  constructor
  · rintro ⟨_, m, ⟨rfl, hm⟩, r', c, k, ⟨rfl, hl, hc⟩, rfl, rfl⟩
    exact ⟨by simp [Reveal.encode], hm, hl, hc⟩
  · rintro ⟨rfl, hm, hl, hc⟩
    exact ⟨_, r.manager, ⟨by simp only [Reveal.encode, List.append_assoc]; rfl, hm⟩, rem, r.pkCurve, r.pk,
      ⟨by simp, hl, hc⟩, rfl, rfl⟩

def innerEncode (branch : Bytes) (level : UInt32) (sig : Bytes) : Bytes :=
  withLength (branch ++ [0] ++ be32 level ++ sig)
def innerWF (branch : Bytes) (sig : Bytes) : Prop := branch.length = 32 ∧ sig.length + 37 < 2 ^ 32

theorem innerEndorsement_ok {i rem : Bytes} {e : Bytes × UInt32 × Bytes} :
    innerEndorsement i = .ok (rem, e) ↔ i = innerEncode e.1 e.2.1 e.2.2 ++ rem ∧ innerWF e.1 e.2.2 := by
  obtain ⟨br, lv, sg⟩ := e
  unfold innerEndorsement Endorsement.fromBytes
  simp only [ebind_ok, Prod.exists, nBeU32_ok, nTake_ok, nU8_ok]
  constructor
  · rintro ⟨_, len, rfl, _, branch, ⟨rfl, hbl⟩, r3, tag, rfl, h⟩
    split at h
    · simp at h
    rename_i ht
    simp only [ne_eq, Decidable.not_not] at ht
    subst ht
    simp only [ebind_ok, Prod.exists, nBeU32_ok] at h
    obtain ⟨r4, level, rfl, h⟩ := h
    simp only [List.length_append, be32_length, Nat.add_sub_cancel] at h
    split at h
    · simp at h
    rename_i hlen
    simp only [ebind_ok, Prod.exists, nTake_ok, ePure, Except.ok.injEq, Prod.mk.injEq] at h
    obtain ⟨r5, sig, ⟨rfl, hsl⟩, rfl, rfl, rfl, rfl⟩ := h
    have := len.toNat_lt
    refine ⟨?_, hbl, by omega⟩
    have hlen2 : len = UInt32.ofNat (branch ++ [0] ++ be32 level ++ sig).length := by
      apply UInt32.toNat_inj.mp
      simp only [UInt32.toNat_ofNat', List.length_append, be32_length, List.length_cons, List.length_nil]
      omega
    simp only [innerEncode, withLength, ← hlen2]
    simp
  · rintro ⟨rfl, hbl, hsl⟩
    have hn : (UInt32.ofNat (br ++ [0] ++ be32 lv ++ sg).length).toNat = 37 + sg.length := by
      simp only [UInt32.toNat_ofNat', List.length_append, be32_length, List.length_cons, List.length_nil]
      omega
    refine ⟨_, _, by simp only [innerEncode, withLength, List.append_assoc]; rfl, _, br, ⟨rfl, hbl⟩,
      be32 lv ++ (sg ++ rem), 0, rfl, ?_⟩
    simp only [ne_eq, not_true_eq_false, if_false, nBeU32_append, ebind_ok_left]
    simp only [List.append_assoc, List.length_append, be32_length] at hn
    simp only [List.length_append, be32_length]
    rw [hn]
    rw [if_neg (by omega)]
    rw [show 37 + sg.length - 33 - (4 + (sg.length + rem.length) - (sg.length + rem.length)) = sg.length by omega]
    simp

def EndorsementWithSlot.encode (e : EndorsementWithSlot) : Bytes :=
  innerEncode e.branch e.level e.signature ++ be16 e.slot
def EndorsementWithSlot.WF (e : EndorsementWithSlot) : Prop := innerWF e.branch e.signature

theorem EndorsementWithSlot.fromBytes_ok {i rem : Bytes} {e : EndorsementWithSlot} :
    EndorsementWithSlot.fromBytes i = .ok (rem, e) ↔ i = e.encode ++ rem ∧ e.WF := by
  unfold EndorsementWithSlot.fromBytes
  simp only [ebind_ok, ePure, Except.ok.injEq, Prod.exists, innerEndorsement_ok, nBeU16_ok, Prod.mk.injEq]
  constructor
  · rintro ⟨_, b, l, s, ⟨rfl, hw⟩, _, sl, rfl, rfl, rfl⟩
    exact ⟨by simp [EndorsementWithSlot.encode], hw⟩
  · rintro ⟨rfl, hw⟩
    exact ⟨_, e.branch, e.level, e.signature, ⟨by simp only [EndorsementWithSlot.encode, List.append_assoc], hw⟩,
      rem, e.slot, rfl, rfl, rfl⟩

theorem chunks32_flatten {b : Bytes} (h : b.length % 32 = 0) :
    (chunks32 b).flatten = b ∧ ∀ c ∈ chunks32 b, c.length = 32 := by
  fun_induction chunks32 b with
  | case1 b hlt =>
    have : b = [] := List.eq_nil_of_length_eq_zero (by omega)
    subst this; simp
  | case2 b hlt ih =>
    have := ih (by simp only [List.length_drop]; omega)
    refine ⟨by simp [this.1], ?_⟩
    intro c hc
    simp only [List.mem_cons] at hc
    rcases hc with rfl | hc
    · simp; omega
    · exact this.2 c hc

theorem chunks32_of_flatten {l : List Bytes} (h : ∀ c ∈ l, c.length = 32) : chunks32 l.flatten = l := by
  induction l with
  | nil => unfold chunks32; simp
  | cons c cs ih =>
    have hc : c.length = 32 := h c (by simp)
    unfold chunks32
    rw [dif_neg (by simp; omega)]
    simp only [List.flatten_cons]
    rw [List.take_append_of_le_length (by omega), List.take_of_length_le (by omega),
      List.drop_append_of_le_length (by omega), List.drop_of_length_le (by omega)]
    simp only [List.nil_append]
    rw [ih (fun c hc => h c (by simp [hc]))]

theorem flatten_length32 {l : List Bytes} (h : ∀ c ∈ l, c.length = 32) : l.flatten.length = 32 * l.length := by
  induction l with
  | nil => rfl
  | cons c cs ih =>
    simp only [List.flatten_cons, List.length_append, List.length_cons]
    rw [ih (fun c hc => h c (by simp [hc])), h c (by simp)]
    omega

def Proposals.encode (p : Proposals) : Bytes :=
  p.source.encode ++ be32 p.period ++ withLength p.proposals.flatten
def Proposals.WF (p : Proposals) : Prop :=
  p.source.WF ∧ (∀ c ∈ p.proposals, c.length = 32) ∧ 32 * p.proposals.length < 2 ^ 32

theorem Proposals.fromBytes_ok {i rem : Bytes} {p : Proposals} :
    Proposals.fromBytes i = .ok (rem, p) ↔ i = p.encode ++ rem ∧ p.WF := by
  unfold Proposals.fromBytes
  simp only [ebind_ok, Prod.exists, publicKeyHash_ok, nBeU32_ok, nLenBytes_ok]
  constructor
  · rintro ⟨_, s, ⟨rfl, hs⟩, _, per, rfl, r3, ps, ⟨rfl, hps⟩, h⟩
    split at h
    · simp at h
    rename_i hm
    simp only [ne_eq, Decidable.not_not] at hm
    simp only [ePure, Except.ok.injEq, Prod.mk.injEq] at h
    obtain ⟨rfl, rfl⟩ := h
    obtain ⟨hf, hall⟩ := chunks32_flatten hm
    refine ⟨by simp [Proposals.encode, hf], hs, hall, ?_⟩
    simp only
    rw [← flatten_length32 hall, hf]
    exact hps
  · rintro ⟨rfl, hs, hall, hl⟩
    refine ⟨_, p.source, ⟨by simp only [Proposals.encode, List.append_assoc], hs⟩, _, p.period, rfl, rem,
      p.proposals.flatten, ⟨rfl, by rw [flatten_length32 hall]; exact hl⟩, ?_⟩
    rw [if_neg (by rw [flatten_length32 hall]; omega), chunks32_of_flatten hall]
    rfl

def Vote.byte : Vote → UInt8
  | .yay => 0
  | .nay => 1
  | .pass => 2

theorem Vote.ofByte_eq {b : UInt8} {v : Vote} : Vote.ofByte b = some v ↔ b = v.byte := by
  constructor
  · intro h
    unfold Vote.ofByte at h
    split at h
    · rename_i hb; subst hb; simp at h; subst h; rfl
    split at h
    · rename_i hb; subst hb; simp at h; subst h; rfl
    split at h
    · rename_i hb; subst hb; simp at h; subst h; rfl
    · simp at h
  · rintro rfl; cases v <;> rfl

def Ballot.encode (b : Ballot) : Bytes := b.source.encode ++ be32 b.period ++ b.proposal ++ [b.vote.byte]
def Ballot.WF (b : Ballot) : Prop := b.source.WF ∧ b.proposal.length = 32

theorem Ballot.fromBytes_ok {i rem : Bytes} {b : Ballot} :
    Ballot.fromBytes i = .ok (rem, b) ↔ i = b.encode ++ rem ∧ b.WF := by
  unfold Ballot.fromBytes
  simp only [ebind_ok, Prod.exists, publicKeyHash_ok, nBeU32_ok, nTake_ok, nU8_ok]
  constructor
  · rintro ⟨_, s, ⟨rfl, hs⟩, _, per, rfl, _, pr, ⟨rfl, hp⟩, r4, v, rfl, h⟩
    split at h
    · simp at h
    rename_i vote hv
    simp only [ePure, Except.ok.injEq, Prod.mk.injEq] at h
    obtain ⟨rfl, rfl⟩ := h
    rw [Vote.ofByte_eq.mp hv]
    exact ⟨by simp [Ballot.encode], hs, hp⟩
  · rintro ⟨rfl, hs, hp⟩
    refine ⟨_, b.source, ⟨by simp only [Ballot.encode, List.append_assoc]; rfl, hs⟩, _, b.period, rfl, _,
      b.proposal, ⟨rfl, hp⟩, rem, b.vote.byte, rfl, ?_⟩
    rw [Vote.ofByte_eq.mpr rfl]
    rfl

def ActivateAccount.encode (a : ActivateAccount) : Bytes := a.pkh.hash ++ a.secret
def ActivateAccount.WF (a : ActivateAccount) : Prop :=
  a.pkh.curve = .bip32Ed25519 ∧ a.pkh.hash.length = 20 ∧ a.secret.length = 20

theorem ActivateAccount.fromBytes_ok {i rem : Bytes} {a : ActivateAccount} :
    ActivateAccount.fromBytes i = .ok (rem, a) ↔ i = a.encode ++ rem ∧ a.WF := by
  unfold ActivateAccount.fromBytes
  simp only [ebind_ok, Prod.exists, ePure, Except.ok.injEq, Prod.mk.injEq, nTake_ok]
  constructor
  · rintro ⟨_, h, ⟨rfl, hh⟩, _, s, ⟨rfl, hs⟩, rfl, rfl⟩
    exact ⟨by simp [ActivateAccount.encode], rfl, hh, hs⟩
  · rintro ⟨rfl, hc, hh, hs⟩
    obtain ⟨⟨c, h⟩, s⟩ := a
    simp only at hc hh hs
    subst hc
    exact ⟨s ++ rem, h, ⟨by simp [ActivateAccount.encode], hh⟩, rem, s, ⟨rfl, hs⟩, rfl, rfl⟩

/-! ### The operation parser -/

/-- Re-encoding of a decoded operation. `pad` is the byte after an originated contract and `flag` the byte
announcing an absent optional field; the decoder drops both. The fields of the operations shown as
"anonymous" are dropped as well, so those have no re-encoding. -/
def Op.encode (pad flag : UInt8) : Op → Option Bytes
  | .transfer t => some (0x6C :: t.encode pad flag)
  | .delegation d => some (0x6E :: d.encode flag)
  | .endorsement l => some (0x00 :: be32 l)
  | .endorsementWithSlot e => some (0x0A :: e.encode)
  | .ballot b => some (0x06 :: b.encode)
  | .reveal r => some (0x6B :: r.encode)
  | .proposals p => some (0x05 :: p.encode)
  | .origination o => some (0x6D :: o.encode flag)
  | .activateAccount a => some (0x04 :: a.encode)
  | .failingNoop d => some (0x11 :: withLength d)
  | .unknown _ => none
  | .anonymous => none

theorem nMap_ok {α β : Type} {f : α → β} {p : PRes α} {rem : Bytes} {b : β} :
    nMap f p = .ok (rem, b) ↔ ∃ a, p = .ok (rem, a) ∧ f a = b := by
  unfold nMap
  simp only [ebind_ok, Prod.exists, ePure, Except.ok.injEq, Prod.mk.injEq]
  constructor
  · rintro ⟨r, a, rfl, rfl, rfl⟩; exact ⟨a, rfl, rfl⟩
  · rintro ⟨a, rfl, rfl⟩; exact ⟨rem, a, rfl, rfl, rfl⟩

/-- The kinds of operations whose fields the decoder keeps. -/
def Op.fieldsKept : Op → Bool
  | .unknown _ => false
  | .anonymous => false
  | _ => true

def Op.WF : Op → Prop
  | .transfer t => t.WF
  | .delegation d => d.WF
  | .endorsement _ => True
  | .endorsementWithSlot e => e.WF
  | .ballot b => b.WF
  | .reveal r => r.WF
  | .proposals p => p.WF
  | .origination o => o.WF
  | .activateAccount a => a.WF
  | .failingNoop d => d.length < 2 ^ 32
  | .unknown _ => True
  | .anonymous => True

/-- The operation tags the app knows. -/
def knownTags : List UInt8 :=
  [0x00, 0x01, 0x02, 0x03, 0x04, 0x05, 0x06, 0x0A, 0x11, 0x6B, 0x6C, 0x6D, 0x6E]

theorem Op.fromBytes_ok_kept {i rem : Bytes} {op : Op} (hk : op.fieldsKept = true) :
    Op.fromBytes i = .ok (rem, op) ↔
      (∃ pad flag e, flag ≠ 255 ∧ op.encode pad flag = some e ∧ i = e ++ rem) ∧ op.WF := by
  unfold Op.fromBytes
  simp only [ebind_ok, Prod.exists, nU8_ok]
  constructor
  · rintro ⟨r, tag, rfl, h⟩
    split at h
    · rename_i ht; subst ht
      simp only [nMap_ok, Endorsement.fromBytes, nBeU32_ok] at h
      obtain ⟨a, rfl, rfl⟩ := h
      exact ⟨⟨0, 0, _, by decide, rfl, by simp⟩, trivial⟩
    split at h
    · simp only [nMap_ok] at h
      obtain ⟨a, _, rfl⟩ := h
      simp [Op.fieldsKept] at hk
    split at h
    · rename_i ht; subst ht
      simp only [nMap_ok, ActivateAccount.fromBytes_ok] at h
      obtain ⟨a, ⟨rfl, hw⟩, rfl⟩ := h
      exact ⟨⟨0, 0, _, by decide, rfl, by simp⟩, hw⟩
    split at h
    · rename_i ht; subst ht
      simp only [nMap_ok, Proposals.fromBytes_ok] at h
      obtain ⟨a, ⟨rfl, hw⟩, rfl⟩ := h
      exact ⟨⟨0, 0, _, by decide, rfl, by simp⟩, hw⟩
    split at h
    · rename_i ht; subst ht
      simp only [nMap_ok, Ballot.fromBytes_ok] at h
      obtain ⟨a, ⟨rfl, hw⟩, rfl⟩ := h
      exact ⟨⟨0, 0, _, by decide, rfl, by simp⟩, hw⟩
    split at h
    · rename_i ht; subst ht
      simp only [nMap_ok, EndorsementWithSlot.fromBytes_ok] at h
      obtain ⟨a, ⟨rfl, hw⟩, rfl⟩ := h
      exact ⟨⟨0, 0, _, by decide, rfl, by simp⟩, hw⟩
    split at h
    · rename_i ht; subst ht
      simp only [nMap_ok, FailingNoop.fromBytes, nLenBytes_ok] at h
      obtain ⟨a, ⟨rfl, hw⟩, rfl⟩ := h
      exact ⟨⟨0, 0, _, by decide, rfl, by simp⟩, hw⟩
    split at h
    · rename_i ht; subst ht
      simp only [nMap_ok, Reveal.fromBytes_ok] at h
      obtain ⟨a, ⟨rfl, hw⟩, rfl⟩ := h
      exact ⟨⟨0, 0, _, by decide, rfl, by simp⟩, hw⟩
    split at h
    · rename_i ht; subst ht
      simp only [nMap_ok, Transfer.fromBytes_ok] at h
      obtain ⟨a, ⟨⟨pad, flag, hf, rfl⟩, hw⟩, rfl⟩ := h
      exact ⟨⟨pad, flag, _, hf, rfl, by simp⟩, hw⟩
    split at h
    · rename_i ht; subst ht
      simp only [nMap_ok, Origination.fromBytes_ok] at h
      obtain ⟨a, ⟨⟨flag, hf, rfl⟩, hw⟩, rfl⟩ := h
      exact ⟨⟨0, flag, _, hf, rfl, by simp⟩, hw⟩
    split at h
    · rename_i ht; subst ht
      simp only [nMap_ok, Delegation.fromBytes_ok] at h
      obtain ⟨a, ⟨⟨flag, hf, rfl⟩, hw⟩, rfl⟩ := h
      exact ⟨⟨0, flag, _, hf, rfl, by simp⟩, hw⟩
    · simp only [ePure, Except.ok.injEq, Prod.mk.injEq] at h
      obtain ⟨rfl, rfl⟩ := h
      simp [Op.fieldsKept] at hk
  · rintro ⟨⟨pad, flag, e, hf, he, rfl⟩, hw⟩
    cases op with
    | transfer t =>
      simp only [Op.encode, Option.some.injEq] at he; subst he
      exact ⟨_, _, rfl, nMap_ok.mpr ⟨t, Transfer.fromBytes_ok.mpr ⟨⟨pad, flag, hf, rfl⟩, hw⟩, rfl⟩⟩
    | delegation d =>
      simp only [Op.encode, Option.some.injEq] at he; subst he
      exact ⟨_, _, rfl, nMap_ok.mpr ⟨d, Delegation.fromBytes_ok.mpr ⟨⟨flag, hf, rfl⟩, hw⟩, rfl⟩⟩
    | endorsement l =>
      simp only [Op.encode, Option.some.injEq] at he; subst he
      exact ⟨_, _, rfl, nMap_ok.mpr ⟨l, nBeU32_ok.mpr rfl, rfl⟩⟩
    | endorsementWithSlot d =>
      simp only [Op.encode, Option.some.injEq] at he; subst he
      exact ⟨_, _, rfl, nMap_ok.mpr ⟨d, EndorsementWithSlot.fromBytes_ok.mpr ⟨rfl, hw⟩, rfl⟩⟩
    | ballot d =>
      simp only [Op.encode, Option.some.injEq] at he; subst he
      exact ⟨_, _, rfl, nMap_ok.mpr ⟨d, Ballot.fromBytes_ok.mpr ⟨rfl, hw⟩, rfl⟩⟩
    | reveal d =>
      simp only [Op.encode, Option.some.injEq] at he; subst he
      exact ⟨_, _, rfl, nMap_ok.mpr ⟨d, Reveal.fromBytes_ok.mpr ⟨rfl, hw⟩, rfl⟩⟩
    | proposals d =>
      simp only [Op.encode, Option.some.injEq] at he; subst he
      exact ⟨_, _, rfl, nMap_ok.mpr ⟨d, Proposals.fromBytes_ok.mpr ⟨rfl, hw⟩, rfl⟩⟩
    | origination d =>
      simp only [Op.encode, Option.some.injEq] at he; subst he
      exact ⟨_, _, rfl, nMap_ok.mpr ⟨d, Origination.fromBytes_ok.mpr ⟨⟨flag, hf, rfl⟩, hw⟩, rfl⟩⟩
    | activateAccount d =>
      simp only [Op.encode, Option.some.injEq] at he; subst he
      exact ⟨_, _, rfl, nMap_ok.mpr ⟨d, ActivateAccount.fromBytes_ok.mpr ⟨rfl, hw⟩, rfl⟩⟩
    | failingNoop d =>
      simp only [Op.encode, Option.some.injEq] at he; subst he
      exact ⟨_, _, rfl, nMap_ok.mpr ⟨d, nLenBytes_ok.mpr ⟨rfl, hw⟩, rfl⟩⟩
    | unknown d => simp [Op.encode] at he
    | anonymous => simp [Op.encode] at he

theorem Op.fromBytes_ok_unknown {i rem data : Bytes} :
    Op.fromBytes i = .ok (rem, .unknown data) ↔
      rem = [] ∧ ∃ tag, tag ∉ knownTags ∧ i = tag :: data := by
  unfold Op.fromBytes
  simp only [ebind_ok, Prod.exists, nU8_ok, knownTags, List.mem_cons, List.not_mem_nil, or_false, not_or]
  constructor
  · rintro ⟨r, tag, rfl, h⟩
    iterate 11
      split at h
      · simp only [nMap_ok] at h
        obtain ⟨_, _, h⟩ := h
        exact absurd h (by simp)
    simp only [ePure, Except.ok.injEq, Prod.mk.injEq, Op.unknown.injEq] at h
    obtain ⟨rfl, rfl⟩ := h
    simp_all
  · rintro ⟨rfl, tag, ht, rfl⟩
    refine ⟨data, tag, rfl, ?_⟩
    simp [ht]

/-! ### Denunciations and nonce revelations, of which only the extent matters -/

theorem SeedNonceRevelation.fromBytes_encode {l : UInt32} {n rem : Bytes} (h : n.length = 32) :
    SeedNonceRevelation.fromBytes (be32 l ++ n ++ rem) = .ok (rem, (l, n)) := by
  unfold SeedNonceRevelation.fromBytes
  simp only [List.append_assoc, nBeU32_append, ebind_ok_left, nTake_append' h, ePure]

theorem fitnessesCount_withLength (l : List Bytes) (h : ∀ f ∈ l, f.length < 2 ^ 32) :
    fitnessesCount (l.flatMap withLength) = .ok l.length := by
  induction l with
  | nil => unfold fitnessesCount; rfl
  | cons f fs ih =>
    have hf := (nLenBytes_ok (i := withLength f ++ fs.flatMap withLength) (rem := fs.flatMap withLength)
      (b := f)).mpr ⟨rfl, h f (by simp)⟩
    simp only [List.flatMap_cons]
    obtain ⟨b0, bs, hb⟩ : ∃ b0 bs, withLength f ++ fs.flatMap withLength = b0 :: bs := by
      cases hw : withLength f ++ fs.flatMap withLength with
      | nil =>
        have := congrArg List.length hw
        simp [withLength] at this
      | cons a b => exact ⟨a, b, rfl⟩
    rw [hb] at hf ⊢
    unfold fitnessesCount
    split
    · rename_i e he; rw [hf] at he; cases he
    · rename_i rem a he
      rw [hf] at he
      simp only [Except.ok.injEq, Prod.mk.injEq] at he
      rw [← he.1, ih (fun f hf => h f (by simp [hf]))]
      rfl

theorem FullBlockHeader.fromBytes_encode (h : Header) (hv : h.Valid) (rem : Bytes) :
    FullBlockHeader.fromBytes (h.encode ++ rem) =
      .ok (rem, ⟨h.level, h.proto, h.predecessor, h.timestamp, h.validationPass, h.operationsHash,
        h.fitness.length, h.fitness.flatMap withLength, h.context, h.priority, h.powNonce, h.seedNonceHash,
        h.escapeVote, h.signature⟩) := by
  obtain ⟨hp, ho, hc, hpow, hs, hsig, hfl, hf⟩ := hv
  unfold FullBlockHeader.fromBytes Header.encode
  have hn : (UInt32.ofNat (h.fitness.flatMap withLength).length).toNat = (h.fitness.flatMap withLength).length := by
    simp only [UInt32.toNat_ofNat']; omega
  conv => lhs; arg 1; rw [withLength]
  simp only [List.append_assoc, nBeU32_append, ebind_ok_left, List.cons_append, List.nil_append, nU8,
    nTake_append' hp, nBeU64_append, nTake_append' ho, hn]
  rw [if_neg (by simp)]
  simp only [List.take_left', List.drop_left', fitnessesCount_withLength _ hf, ebind_ok_left,
    nTake_append' hc, nBeU16_append, nTake_append' hpow]
  have hseed := (nCond_ok (p := nTake 32) (enc := id) (wf := fun s => s.length = 32)
    (fun i rem a => by simp only [nTake_ok, id])
    (i := encodeOption id h.seedNonceHash ++ ((if h.escapeVote then 0xFF else 0) :: (h.signature ++ rem)))
    (rem := (if h.escapeVote then 0xFF else 0) :: (h.signature ++ rem)) (o := h.seedNonceHash)).mpr
    ⟨⟨0, by decide, by cases h.seedNonceHash <;> rfl⟩, hs⟩
  obtain ⟨r, b, hb, hcond⟩ := hseed
  rw [hb, ebind_ok_left]
  simp only
  rw [hcond, ebind_ok_left]
  simp only [boolean, nU8, ebind_ok_left, ePure, nTake_append' hsig]
  cases h.escapeVote <;> rfl

/-! ### C31 -/

/-- The key kinds of the protocol in the app's terms; the app uses `Bip32Ed25519` for ed25519. -/
def KeyKind.curve : KeyKind → Curve
  | .ed25519 => .bip32Ed25519
  | .secp256k1 => .secp256k1
  | .p256 => .secp256r1

def Pkh.ofSpec (a : Account) : Pkh := ⟨KeyKind.curve a.kind, a.hash⟩

def ContractID.ofSpec : Destination → ContractID
  | .account a => .implicit (Pkh.ofSpec a)
  | .contract h => .originated h

def Entrypoint.ofSpec : Entry → Entrypoint
  | .default => .default
  | .root => .root
  | .do_ => .do_
  | .setDelegate => .setDelegate
  | .removeDelegate => .removeDelegate
  | .named n => .custom n

def Zarith.ofSpec (n : Nat) : Zarith := ⟨zarithEncode n, none⟩

def Manager.ofSpec (m : ManagerFields) : Manager :=
  ⟨Pkh.ofSpec m.source, .ofSpec m.fee, .ofSpec m.counter, .ofSpec m.gasLimit, .ofSpec m.storageLimit⟩

def Vote.ofSpec : Choice → Vote
  | .yay => .yay
  | .nay => .nay
  | .pass => .pass

/-- How an operation of the protocol is represented after decoding. -/
def Op.ofSpec : Operation → Op
  | .endorsement l => .endorsement l
  | .seedNonceRevelation _ _ => .anonymous
  | .doubleEndorsement _ _ _ => .anonymous
  | .doubleBaking _ _ => .anonymous
  | .activateAccount h s => .activateAccount ⟨⟨.bip32Ed25519, h⟩, s⟩
  | .proposals s p ps => .proposals ⟨Pkh.ofSpec s, p, ps⟩
  | .ballot s p h v => .ballot ⟨Pkh.ofSpec s, p, h, Vote.ofSpec v⟩
  | .endorsementWithSlot e s => .endorsementWithSlot ⟨e.branch, e.level, e.signature, s⟩
  | .failingNoop d => .failingNoop d
  | .reveal m k key => .reveal ⟨Manager.ofSpec m, KeyKind.curve k, key⟩
  | .transfer m a d c =>
    .transfer ⟨Manager.ofSpec m, .ofSpec a, .ofSpec d, c.map fun c => ⟨.ofSpec c.entry, c.argument⟩⟩
  | .origination m b d code storage =>
    .origination ⟨Manager.ofSpec m, .ofSpec b, d.map Pkh.ofSpec, ⟨code, storage⟩⟩
  | .delegation m d => .delegation ⟨Manager.ofSpec m, d.map Pkh.ofSpec⟩

theorem Pkh.ofSpec_encode (a : Account) : (Pkh.ofSpec a).encode = a.encode := by
  obtain ⟨k, h⟩ := a
  cases k <;> rfl
theorem Pkh.ofSpec_wf {a : Account} (h : a.Valid) : (Pkh.ofSpec a).WF := by
  refine ⟨h, ?_⟩
  obtain ⟨k, h⟩ := a
  cases k <;> simp [Pkh.ofSpec, KeyKind.curve]
theorem Zarith.ofSpec_wf (n : Nat) : (Zarith.ofSpec n).WF := ⟨IsZarith_encode n, rfl⟩
theorem Manager.ofSpec_encode (m : ManagerFields) : (Manager.ofSpec m).encode = m.encode := by
  simp [Manager.encode, ManagerFields.encode, Manager.ofSpec, Pkh.ofSpec_encode, Zarith.ofSpec]
theorem Manager.ofSpec_wf {m : ManagerFields} (h : m.source.Valid) : (Manager.ofSpec m).WF :=
  ⟨Pkh.ofSpec_wf h, Zarith.ofSpec_wf _, Zarith.ofSpec_wf _, Zarith.ofSpec_wf _, Zarith.ofSpec_wf _⟩
theorem ContractID.ofSpec_encode (d : Destination) : (ContractID.ofSpec d).encode 0 = d.encode := by
  cases d with
  | account a => simp [ContractID.ofSpec, ContractID.encode, Destination.encode, Pkh.ofSpec_encode]
  | contract h => rfl
theorem ContractID.ofSpec_wf {d : Destination} (h : d.Valid) : (ContractID.ofSpec d).WF := by
  cases d with
  | account a => exact Pkh.ofSpec_wf h
  | contract c => exact h
theorem Entrypoint.ofSpec_encode (e : Entry) : (Entrypoint.ofSpec e).encode = e.encode := by
  cases e <;> rfl
theorem Entrypoint.ofSpec_wf {e : Entry} (h : e.Valid) : (Entrypoint.ofSpec e).WF := by
  cases e <;> exact h

/-- The decoded form of a protocol operation re-encodes to the protocol encoding. -/
theorem Op.ofSpec_encode (o : Operation) (hk : (Op.ofSpec o).fieldsKept = true) :
    (Op.ofSpec o).encode 0 0 = some o.encode := by
  cases o with
  | endorsement l => rfl
  | seedNonceRevelation l n => simp [Op.ofSpec, Op.fieldsKept] at hk
  | doubleEndorsement e1 e2 s => simp [Op.ofSpec, Op.fieldsKept] at hk
  | doubleBaking h1 h2 => simp [Op.ofSpec, Op.fieldsKept] at hk
  | activateAccount h s => rfl
  | proposals s p ps =>
    simp [Op.ofSpec, Op.encode, Operation.encode, Proposals.encode, Pkh.ofSpec_encode]
  | ballot s p h v =>
    cases v <;> simp [Op.ofSpec, Op.encode, Operation.encode, Ballot.encode, Pkh.ofSpec_encode, Vote.ofSpec,
      Vote.byte, Choice.byte]
  | endorsementWithSlot e s => rfl
  | failingNoop d => rfl
  | reveal m k key =>
    cases k <;> simp [Op.ofSpec, Op.encode, Operation.encode, Reveal.encode, Manager.ofSpec_encode,
      KeyKind.curve, Curve.opTag, KeyKind.tag]
  | transfer m a d c =>
    cases c <;> simp [Op.ofSpec, Op.encode, Operation.encode, Transfer.encode, Manager.ofSpec_encode,
      Zarith.ofSpec, ContractID.ofSpec_encode, encodeOption, encodeOptionWith, Parameters.encode, Call.encode,
      Entrypoint.ofSpec_encode]
  | origination m b d code storage =>
    cases d <;> simp [Op.ofSpec, Op.encode, Operation.encode, Origination.encode, Manager.ofSpec_encode,
      Zarith.ofSpec, encodeOption, encodeOptionWith, Pkh.ofSpec_encode]
  | delegation m d =>
    cases d <;> simp [Op.ofSpec, Op.encode, Operation.encode, Delegation.encode, Manager.ofSpec_encode,
      encodeOption, encodeOptionWith, Pkh.ofSpec_encode]

theorem Op.ofSpec_wf {o : Operation} (h : o.Valid) : (Op.ofSpec o).WF := by
  cases o with
  | endorsement l => trivial
  | seedNonceRevelation l n => trivial
  | doubleEndorsement e1 e2 s => trivial
  | doubleBaking h1 h2 => trivial
  | activateAccount a s => exact ⟨rfl, h.1, h.2⟩
  | proposals s p ps => exact ⟨Pkh.ofSpec_wf h.1, h.2.1, h.2.2⟩
  | ballot s p b v => exact ⟨Pkh.ofSpec_wf h.1, h.2⟩
  | endorsementWithSlot e s => exact h
  | failingNoop d => exact h
  | reveal m k key =>
    refine ⟨Manager.ofSpec_wf h.1, ?_, ?_⟩
    · have := h.2
      cases k <;> simpa [KeyKind.curve, keyLen, Curve.opTag, KeyKind.keyLength] using this
    · cases k <;> simp [KeyKind.curve]
  | transfer m a d c =>
    refine ⟨Manager.ofSpec_wf h.1, Zarith.ofSpec_wf _, ContractID.ofSpec_wf h.2.1, ?_⟩
    cases c with
    | none => trivial
    | some c => exact ⟨Entrypoint.ofSpec_wf h.2.2.1, h.2.2.2⟩
  | origination m b d code storage =>
    refine ⟨Manager.ofSpec_wf h.1, Zarith.ofSpec_wf _, ?_, h.2.2.1, h.2.2.2⟩
    cases d with
    | none => trivial
    | some d => exact Pkh.ofSpec_wf h.2.1
  | delegation m d =>
    refine ⟨Manager.ofSpec_wf h.1, ?_⟩
    cases d with
    | none => trivial
    | some d => exact Pkh.ofSpec_wf h.2

/-- **C31.** Decoding the protocol encoding of any well-sized operation, followed by anything, gives back
that operation and leaves exactly what followed. (Nonce revelations and denunciations are recognised and
skipped over exactly; their fields are not kept.) -/
theorem C31_decode_encode (o : Operation) (hv : o.Valid) (suffix : Bytes) :
    Op.fromBytes (o.encode ++ suffix) = .ok (suffix, Op.ofSpec o) := by
  by_cases hk : (Op.ofSpec o).fieldsKept = true
  · exact (Op.fromBytes_ok_kept hk).mpr
      ⟨⟨0, 0, o.encode, by decide, Op.ofSpec_encode o hk, rfl⟩, Op.ofSpec_wf hv⟩
  · cases o with
    | seedNonceRevelation l n =>
      have := SeedNonceRevelation.fromBytes_encode (l := l) (rem := suffix) hv
      unfold Op.fromBytes
      simp only [Operation.encode, List.cons_append, nU8, ebind_ok_left, Op.ofSpec]
      simp [anonymousFromBytes, nMap] at this ⊢
      simp [this]
    | doubleEndorsement e1 e2 s =>
      have h1 := (innerEndorsement_ok (i := e1.encode ++ (e2.encode ++ (be16 s ++ suffix)))
        (rem := e2.encode ++ (be16 s ++ suffix)) (e := (e1.branch, e1.level, e1.signature))).mpr ⟨rfl, hv.1⟩
      have h2 := (innerEndorsement_ok (i := e2.encode ++ (be16 s ++ suffix))
        (rem := be16 s ++ suffix) (e := (e2.branch, e2.level, e2.signature))).mpr ⟨rfl, hv.2⟩
      unfold Op.fromBytes
      simp only [Operation.encode, List.cons_append, nU8, ebind_ok_left, Op.ofSpec]
      simp [anonymousFromBytes, nMap, DoubleEndorsementEvidence.fromBytes, h1, h2]
    | doubleBaking b1 b2 =>
      have h1 := FullBlockHeader.fromBytes_encode b1 hv.1 (b2.encode ++ suffix)
      have h2 := FullBlockHeader.fromBytes_encode b2 hv.2 suffix
      unfold Op.fromBytes
      simp only [Operation.encode, List.cons_append, nU8, ebind_ok_left, Op.ofSpec]
      simp [anonymousFromBytes, nMap, DoubleBakingEvidence.fromBytes, h1, h2]
    | _ => exact absurd rfl hk

/-- **C31**, corollary: two different operations never have the same encoding, even when other operations
follow, except for those whose fields the app drops. -/
theorem C31_encodings_distinct (o₁ o₂ : Operation) (h₁ : o₁.Valid) (h₂ : o₂.Valid) (s₁ s₂ : Bytes)
    (h : o₁.encode ++ s₁ = o₂.encode ++ s₂) : s₁ = s₂ ∧ Op.ofSpec o₁ = Op.ofSpec o₂ := by
  have h1 := C31_decode_encode o₁ h₁ s₁
  rw [h, C31_decode_encode o₂ h₂ s₂] at h1
  simp only [Except.ok.injEq, Prod.mk.injEq] at h1
  exact ⟨h1.1.symm, h1.2.symm⟩

/-- A transfer of 1.5 tez to a contract with a named entrypoint. -/
def demoTransfer : Operation :=
  .transfer ⟨⟨.ed25519, List.replicate 20 7⟩, 1420, 300000, 10600, 300⟩ 1500000
    (.contract (List.replicate 20 9)) (some ⟨.named [109, 105, 110, 116], [3, 11]⟩)

example : demoTransfer.Valid := by
  simp [demoTransfer, Operation.Valid, Account.Valid, Destination.Valid, validOption, Call.Valid, Entry.Valid]

/-! ### C32 -/

/-- **C32 (negated).** Distinct inputs decode to the same operation: whatever the byte after the hash of a contract, a
transfer to that contract decodes to the same fields. So the decoded operation does not determine the signed bytes. -/
theorem C32_padding_ignored (m : ManagerFields) (hm : m.source.Valid) (amount : Nat) (hash : Bytes)
    (hh : hash.length = 20) (pad : UInt8) :
    Op.fromBytes (0x6C :: (m.encode ++ zarithEncode amount ++ (1 :: (hash ++ [pad])) ++ [0])) =
      .ok ([], Op.ofSpec (.transfer m amount (.contract hash) none)) := by
  have hw : (Op.ofSpec (.transfer m amount (.contract hash) none)).WF :=
    ⟨Manager.ofSpec_wf hm, Zarith.ofSpec_wf _, hh, trivial⟩
  exact (Op.fromBytes_ok_kept rfl).mpr ⟨⟨pad, 0, _, by decide, rfl, by
    simp [Transfer.encode, Manager.ofSpec_encode, Zarith.ofSpec, ContractID.ofSpec, ContractID.encode,
      encodeOptionWith]⟩, hw⟩

/-- **C32 (negated).** Whatever the byte that says that a delegation names no delegate, it decodes to the same
withdrawal. -/
theorem C32_flag_ignored (m : ManagerFields) (hm : m.source.Valid) (flag : UInt8) (hf : flag ≠ 0xFF) :
    Op.fromBytes (0x6E :: (m.encode ++ [flag])) = .ok ([], Op.ofSpec (.delegation m none)) := by
  have hw : (Op.ofSpec (.delegation m none)).WF := ⟨Manager.ofSpec_wf hm, trivial⟩
  exact (Op.fromBytes_ok_kept rfl).mpr ⟨⟨0, flag, _, hf, rfl, by
    simp [Delegation.encode, Manager.ofSpec_encode, encodeOptionWith]⟩, hw⟩

/-- Two different transfers to a contract, and two different withdrawals, that decode alike. -/
example : let m : ManagerFields := ⟨⟨.ed25519, List.replicate 20 7⟩, 1420, 300000, 10600, 300⟩
    Op.fromBytes (0x6C :: (m.encode ++ zarithEncode 1 ++ (1 :: (List.replicate 20 9 ++ [0])) ++ [0])) =
      Op.fromBytes (0x6C :: (m.encode ++ zarithEncode 1 ++ (1 :: (List.replicate 20 9 ++ [1])) ++ [0])) ∧
    Op.fromBytes (0x6E :: (m.encode ++ [0])) = Op.fromBytes (0x6E :: (m.encode ++ [1])) := by
  intro m
  have hm : m.source.Valid := by simp [m, Account.Valid]
  exact ⟨by rw [C32_padding_ignored m hm 1 _ (by simp), C32_padding_ignored m hm 1 _ (by simp)],
    by rw [C32_flag_ignored m hm _ (by decide), C32_flag_ignored m hm _ (by decide)]⟩

/-- **C32, what does hold.** Whatever the input, when it decodes to an operation whose fields are kept, the
consumed bytes are that operation's encoding up to two bytes: the padding byte of a contract and the flag of
an absent field. -/
theorem C32_faithful_partial {i rem : Bytes} {op : Op} (h : Op.fromBytes i = .ok (rem, op))
    (hk : op.fieldsKept = true) :
    ∃ pad flag e, flag ≠ 255 ∧ op.encode pad flag = some e ∧ i = e ++ rem :=
  ((Op.fromBytes_ok_kept hk).mp h).1

/-- **C32, unknown operations**: the rest of the input, all of it, is kept as opaque data, but not the tag. -/
theorem C32_unknown_partial {i rem data : Bytes} (h : Op.fromBytes i = .ok (rem, .unknown data)) :
    rem = [] ∧ ∃ tag, tag ∉ knownTags ∧ i = tag :: data := Op.fromBytes_ok_unknown.mp h

theorem C32_unknown_tag_dropped (t₁ t₂ : UInt8) (h₁ : t₁ ∉ knownTags) (h₂ : t₂ ∉ knownTags) (data : Bytes) :
    Op.fromBytes (t₁ :: data) = Op.fromBytes (t₂ :: data) := by
  rw [Op.fromBytes_ok_unknown.mpr ⟨rfl, t₁, h₁, rfl⟩, Op.fromBytes_ok_unknown.mpr ⟨rfl, t₂, h₂, rfl⟩]

example : (0x70 : UInt8) ∉ knownTags ∧ (0x71 : UInt8) ∉ knownTags := by decide

end Tezos
