import Verif.Props.Batch
/-
The references of a parsed operation: as long as the bytes are the parsed ones, they give the parsed values.
-/
namespace Tezos
open Spec

theorem slice_mid {b x m y : Bytes} {off len : Nat} (hb : b = x ++ (m ++ y)) (ho : x.length = off)
    (hl : m.length = len) : slice b off len = m := by
  subst ho hl hb
  simp [slice]

theorem Zarith.reread_mid {z : Zarith} {b x y : Bytes} {off : Nat} (hb : b = x ++ (z.bytes ++ y))
    (ho : x.length = off) : z.reread b off = z := by
  unfold Zarith.reread
  rw [slice_mid hb ho rfl]

theorem Manager.encode_length {m : Manager} (h : m.WF) : m.encode.length = m.size := by
  have := h.1.1
  simp only [Manager.encode, Manager.size, Pkh.encode, List.length_append, List.length_cons, this]

theorem Manager.reread_mid {m : Manager} (h : m.WF) {b x y : Bytes} {off : Nat} (hb : b = x ++ (m.encode ++ y))
    (ho : x.length = off) : m.reread b off = m := by
  obtain ⟨⟨curve, hash⟩, fee, counter, gas, storage⟩ := m
  have hl : hash.length = 20 := h.1.1
  subst ho
  simp only [Manager.encode, Pkh.encode] at hb
  simp only [Manager.reread, Manager.mk.injEq]
  refine ⟨?_, ?_, ?_, ?_, ?_⟩
  · rw [slice_mid (x := x ++ [curve.opTag]) (m := hash) (b := b)
      (y := fee.bytes ++ counter.bytes ++ gas.bytes ++ storage.bytes ++ y) (by simp [hb]) (by simp) hl]
  · exact Zarith.reread_mid (x := x ++ [curve.opTag] ++ hash) (y := counter.bytes ++ gas.bytes ++ storage.bytes ++ y)
      (by simp [hb]) (by simp [hl])
  · exact Zarith.reread_mid (x := x ++ [curve.opTag] ++ hash ++ fee.bytes) (y := gas.bytes ++ storage.bytes ++ y)
      (by simp [hb]) (by simp [hl]; omega)
  · exact Zarith.reread_mid (x := x ++ [curve.opTag] ++ hash ++ fee.bytes ++ counter.bytes) (y := storage.bytes ++ y)
      (by simp [hb]) (by simp [hl]; omega)
  · exact Zarith.reread_mid (x := x ++ [curve.opTag] ++ hash ++ fee.bytes ++ counter.bytes ++ gas.bytes) (y := y)
      (by simp [hb]) (by simp [hl]; omega)

/-- The references give the parsed operation. -/
theorem Op.reread_parsed {i rest : Bytes} {op : Op} (h : parseNext i = .ok (some (rest, op)))
    (hop : (∃ d, op = .delegation d) ∨ ∃ r, op = .reveal r) : op.reread i = op := by
  have h := parseNext_some h
  rcases hop with ⟨d, rfl⟩ | ⟨r, rfl⟩
  · obtain ⟨⟨pad, flag, e, hf, he, rfl⟩, hw⟩ := (Op.fromBytes_ok_kept rfl).mp h
    obtain ⟨m, dg⟩ := d
    obtain ⟨hm, hd⟩ : m.WF ∧ validOption Pkh.WF dg := hw
    simp only [Op.encode, Delegation.encode, Option.some.injEq] at he
    subst he
    simp only [Op.reread, Op.delegation.injEq, Delegation.mk.injEq]
    refine ⟨Manager.reread_mid hm (x := [0x6E]) (y := encodeOptionWith flag Pkh.encode dg ++ rest) (by simp) rfl, ?_⟩
    cases dg with
    | none => rfl
    | some p =>
      have hl : p.hash.length = 20 := hd.1
      rw [Option.map_some, slice_mid (x := 0x6E :: m.encode ++ [255, p.curve.opTag]) (m := p.hash) (y := rest)
        (by simp [encodeOptionWith, Pkh.encode]) (by simp [Manager.encode_length hm]; omega) hl]
  · obtain ⟨⟨pad, flag, e, hf, he, rfl⟩, hw⟩ := (Op.fromBytes_ok_kept rfl).mp h
    obtain ⟨m, c, pk⟩ := r
    obtain ⟨hm, hl, -⟩ : m.WF ∧ pk.length = keyLen c ∧ c ≠ .ed25519 := hw
    simp only [Op.encode, Reveal.encode, Option.some.injEq] at he
    subst he
    simp only [Op.reread, Op.reveal.injEq, Reveal.mk.injEq, true_and]
    refine ⟨Manager.reread_mid hm (x := [0x6B]) (y := [c.opTag] ++ pk ++ rest) (by simp) rfl, ?_⟩
    exact slice_mid (x := 0x6B :: m.encode ++ [c.opTag]) (y := rest) (by simp)
      (by simp [Manager.encode_length hm]; omega) rfl

/-! ### Whatever the bytes have become -/

/-- The common fields as far as the texts depend on them. -/
structure Manager.Loose (m : Manager) : Prop where
  source : m.source.hash.length ≤ 20
  fee : m.fee.isNegative = none
  counter : m.counter.isNegative = none
  gas : m.gasLimit.isNegative = none
  storage : m.storageLimit.isNegative = none

/-- An operation whose bytes may have changed after it was parsed. -/
def Op.Loose : Op → Prop
  | .delegation d => d.manager.Loose ∧ ∀ p, d.delegate = some p → p.hash.length ≤ 20
  | .reveal r => r.manager.Loose ∧ r.pk.length ≤ keyLen r.pkCurve
  | op => op.WF

theorem Manager.WF.loose {m : Manager} (h : m.WF) : m.Loose :=
  ⟨Nat.le_of_eq h.1.1, h.2.1.2, h.2.2.1.2, h.2.2.2.1.2, h.2.2.2.2.2⟩

theorem Manager.WF.reread {m : Manager} (h : m.WF) (b : Bytes) (o : Nat) : (m.reread b o).Loose :=
  ⟨slice_length_le _ _ _, h.2.1.2, h.2.2.1.2, h.2.2.2.1.2, h.2.2.2.2.2⟩

theorem Op.WF.loose {op : Op} (h : op.WF) : op.Loose := by
  cases op with
  | delegation d =>
    obtain ⟨h1, h2⟩ : d.WF := h
    refine ⟨h1.loose, fun p hp => ?_⟩
    rw [hp] at h2
    exact Nat.le_of_eq h2.1
  | reveal r =>
    obtain ⟨h1, h2, _⟩ : r.WF := h
    exact ⟨h1.loose, Nat.le_of_eq h2⟩
  | _ => exact h

theorem Op.WF.reread {op : Op} (h : op.WF) (b : Bytes) : (op.reread b).Loose := by
  cases op with
  | delegation d =>
    obtain ⟨h1, h2⟩ : d.WF := h
    refine ⟨h1.reread _ _, fun p hp => ?_⟩
    obtain ⟨q, _, rfl⟩ := Option.map_eq_some_iff.1 hp
    exact slice_length_le _ _ _
  | reveal r =>
    obtain ⟨h1, h2, _⟩ : r.WF := h
    exact ⟨h1.reread _ _, Nat.le_trans (slice_length_le _ _ _) (Nat.le_of_eq h2)⟩
  | _ => exact h

end Tezos
