import Verif.Render
import Verif.Props.Operations
/-
C34 batches, C38 announced items, C39 order of the items, C41 visibility of every operation.
-/
set_option linter.unusedSimpArgs false
namespace Tezos
open Spec

/-! ### Every operation takes at least one byte -/

theorem nCond_suffix {b : Bool} {i rem : Bytes} {o : Option Bytes} (h : nCond b (nTake 32) i = .ok (rem, o)) :
    ∃ p, i = p ++ rem := by
  unfold nCond at h
  split at h
  · simp only [ebind_ok, Prod.exists, ePure, Except.ok.injEq, Prod.mk.injEq, nTake_ok] at h
    obtain ⟨r, x, ⟨rfl, -⟩, rfl, rfl⟩ := h
    exact ⟨x, rfl⟩
  · simp only [Except.ok.injEq, Prod.mk.injEq] at h
    exact ⟨[], by simp [h.1]⟩

theorem FullBlockHeader.suffix {i rem : Bytes} {h : FullBlockHeader}
    (hp : FullBlockHeader.fromBytes i = .ok (rem, h)) : ∃ p, i = p ++ rem := by
  unfold FullBlockHeader.fromBytes at hp
  simp only [ebind_ok, Prod.exists, nBeU32_ok, nU8_ok, nTake_ok, nBeU64_ok] at hp
  obtain ⟨_, _, rfl, _, _, rfl, _, _, ⟨rfl, -⟩, _, _, rfl, _, _, rfl, _, _, ⟨rfl, -⟩, r, len, rfl, hp⟩ := hp
  split at hp
  · simp at hp
  rename_i hlen
  simp only [ebind_ok, Prod.exists, nBeU16_ok, nTake_ok, boolean_ok, ePure, Except.ok.injEq,
    Prod.mk.injEq] at hp
  obtain ⟨_, _, r1, _, ⟨h1, -⟩, r2, _, h2, r3, _, ⟨h3, -⟩, r4, _, ⟨x, h4, -⟩, r5, _, h5, r6, _, ⟨y, h6, -⟩, r7, _,
    ⟨h7, -⟩, rfl, -⟩ := hp
  obtain ⟨p5, h5⟩ := nCond_suffix h5
  have hr : r = r.take len.toNat ++ r.drop len.toNat := (List.take_append_drop _ _).symm
  rw [hr, h1, h2, h3, h4, h5, h6, h7]
  simp only [← List.append_assoc, ← List.cons_append]
  exact ⟨_, rfl⟩

theorem anonymous_suffix {tag : UInt8} {i rem : Bytes} {u : Unit}
    (h : anonymousFromBytes tag i = .ok (rem, u)) : ∃ p, i = p ++ rem := by
  unfold anonymousFromBytes at h
  split at h
  · simp only [SeedNonceRevelation.fromBytes, ebind_ok, Prod.exists, nBeU32_ok, nTake_ok, ePure,
      Except.ok.injEq, Prod.mk.injEq] at h
    obtain ⟨r, _, _, ⟨r1, _, rfl, r2, _, ⟨rfl, -⟩, rfl, -⟩, rfl, -⟩ := h
    exact ⟨_, by rw [← List.append_assoc]⟩
  split at h
  · simp only [DoubleEndorsementEvidence.fromBytes, ebind_ok, Prod.exists, innerEndorsement_ok, nBeU16_ok,
      ePure, Except.ok.injEq, Prod.mk.injEq] at h
    obtain ⟨r, _, _, _, _, _, _, _, ⟨_, _, _, _, ⟨rfl, -⟩, _, _, _, _, ⟨rfl, -⟩, _, _, rfl, rfl, -⟩, rfl, -⟩ := h
    exact ⟨_, by rw [← List.append_assoc, ← List.append_assoc]⟩
  split at h
  · simp only [DoubleBakingEvidence.fromBytes, ebind_ok, Prod.exists, ePure, Except.ok.injEq,
      Prod.mk.injEq] at h
    obtain ⟨r, _, _, ⟨r1, _, h1, r2, _, h2, rfl, -⟩, rfl, -⟩ := h
    obtain ⟨p1, rfl⟩ := FullBlockHeader.suffix h1
    obtain ⟨p2, rfl⟩ := FullBlockHeader.suffix h2
    exact ⟨p1 ++ p2, by rw [List.append_assoc]⟩
  · simp at h

/-- The bytes `piece` hold exactly the operation `op`, as far as the decoder keeps it. -/
def Op.Holds (piece : Bytes) (op : Op) : Prop :=
  piece ≠ [] ∧
  match op with
  | .unknown data => ∃ tag, tag ∉ knownTags ∧ piece = tag :: data
  | .anonymous => ∃ tag body, (tag = 1 ∨ tag = 2 ∨ tag = 3) ∧ piece = tag :: body
  | op => ∃ pad flag, flag ≠ 255 ∧ op.encode pad flag = some piece

theorem Op.fromBytes_anonymous {i rem : Bytes} (h : Op.fromBytes i = .ok (rem, .anonymous)) :
    ∃ tag body, (tag = 1 ∨ tag = 2 ∨ tag = 3) ∧ i = tag :: body ++ rem := by
  unfold Op.fromBytes at h
  simp only [ebind_ok, Prod.exists, nU8_ok] at h
  obtain ⟨r, tag, rfl, h⟩ := h
  split at h
  · simp only [nMap_ok] at h
    obtain ⟨_, _, h⟩ := h
    exact absurd h (by simp)
  split at h
  · rename_i ht
    simp only [nMap_ok] at h
    obtain ⟨_, h, -⟩ := h
    obtain ⟨p, rfl⟩ := anonymous_suffix h
    exact ⟨tag, p, ht, rfl⟩
  iterate 9
    split at h
    · simp only [nMap_ok] at h
      obtain ⟨_, _, h⟩ := h
      exact absurd h (by simp)
  simp at h

theorem Op.fromBytes_holds {i rem : Bytes} {op : Op} (h : Op.fromBytes i = .ok (rem, op)) :
    ∃ piece, i = piece ++ rem ∧ op.Holds piece := by
  by_cases hk : op.fieldsKept = true
  · obtain ⟨⟨pad, flag, e, hf, he, rfl⟩, -⟩ := (Op.fromBytes_ok_kept hk).mp h
    refine ⟨e, rfl, ?_, ?_⟩
    · cases op <;> simp only [Op.encode, Option.some.injEq, reduceCtorEq] at he <;> simp [← he]
    · cases op <;> first | exact ⟨pad, flag, hf, he⟩ | (simp [Op.fieldsKept] at hk)
  · cases op with
    | unknown d =>
      obtain ⟨rfl, tag, ht, rfl⟩ := Op.fromBytes_ok_unknown.mp h
      exact ⟨tag :: d, by simp, by simp, tag, ht, rfl⟩
    | anonymous =>
      obtain ⟨tag, body, ht, rfl⟩ := Op.fromBytes_anonymous h
      exact ⟨tag :: body, rfl, by simp, tag, body, ht, rfl⟩
    | _ => simp [Op.fieldsKept] at hk

theorem Op.fromBytes_shorter {i rem : Bytes} {op : Op} (h : Op.fromBytes i = .ok (rem, op)) :
    rem.length < i.length := by
  obtain ⟨p, rfl, hp, -⟩ := Op.fromBytes_holds h
  have := List.length_pos_iff.mpr hp
  simp; omega

theorem parseNext_some {i rem : Bytes} {op : Op} (h : parseNext i = .ok (some (rem, op))) :
    Op.fromBytes i = .ok (rem, op) := by
  unfold parseNext at h
  split at h
  · simp at h
  · simp only [ebind_ok, ePure, Except.ok.injEq, Option.some.injEq] at h
    obtain ⟨x, hx, rfl⟩ := h
    exact hx

theorem parseNext_none {i : Bytes} (h : parseNext i = .ok none) : i = [] := by
  unfold parseNext at h
  split at h
  · rfl
  · simp [ebind_ok] at h

theorem parseNext_of {i rem : Bytes} {op : Op} (h : Op.fromBytes i = .ok (rem, op)) :
    parseNext i = .ok (some (rem, op)) := by
  cases i with
  | nil => simp [Op.fromBytes, nU8] at h
  | cons b bs => simp [parseNext, h]

theorem parseOpsFuel_eq (f g : Nat) (i : Bytes) (hf : i.length < f) (hg : i.length < g) :
    parseOpsFuel f i = parseOpsFuel g i := by
  induction f generalizing g i with
  | zero => omega
  | succ f ih =>
    obtain ⟨g, rfl⟩ : ∃ k, g = k + 1 := ⟨g - 1, by omega⟩
    unfold parseOpsFuel
    cases hn : parseNext i with
    | error e => rfl
    | ok o =>
      cases o with
      | none => rfl
      | some x =>
        obtain ⟨rem, op⟩ := x
        have := Op.fromBytes_shorter (parseNext_some hn)
        simp only [ebind_ok_left]
        rw [ih g rem (by omega) (by omega)]

/-! The three equations of the loop. -/

theorem parseOps_nil : parseOps [] = .ok [] := rfl

theorem parseOps_cons {i rem : Bytes} {op : Op} (h : Op.fromBytes i = .ok (rem, op)) :
    parseOps i = (do return op :: (← parseOps rem)) := by
  have hs := Op.fromBytes_shorter h
  unfold parseOps
  rw [parseOpsFuel, parseNext_of h]
  simp only [ebind_ok_left]
  rw [parseOpsFuel_eq i.length (rem.length + 1) rem (by omega) (by omega)]

theorem parseOps_error {i : Bytes} {e : PErr} (hne : i ≠ []) (h : Op.fromBytes i = .error e) :
    parseOps i = .error e := by
  unfold parseOps
  rw [parseOpsFuel]
  cases i with
  | nil => exact absurd rfl hne
  | cons b bs => simp [parseNext, h]

/-! ### C34 -/

/-- **C34.** The concatenation of encoded operations is split into exactly those operations, in order. -/
theorem C34_batch (os : List Operation) (h : ∀ o ∈ os, o.Valid) :
    parseOps (os.flatMap Operation.encode) = .ok (os.map Op.ofSpec) := by
  induction os with
  | nil => rfl
  | cons o os ih =>
    rw [List.flatMap_cons, parseOps_cons (C31_decode_encode o (h o (by simp)) _),
      ih (fun o ho => h o (by simp [ho]))]
    rfl

/-- **C34**, converse: whatever the bytes, when the loop succeeds they are the concatenation of the
operations found: nothing is skipped between them or left at the end. -/
theorem C34_nothing_skipped (i : Bytes) (ops : List Op) (h : parseOps i = .ok ops) :
    ∃ pieces, pieces.flatten = i ∧ List.Forall₂ Op.Holds pieces ops := by
  have : ∀ n (i : Bytes) ops, i.length ≤ n → parseOps i = .ok ops →
      ∃ pieces, pieces.flatten = i ∧ List.Forall₂ Op.Holds pieces ops := by
    intro n
    induction n with
    | zero =>
      intro i ops hi h
      have : i = [] := List.eq_nil_of_length_eq_zero (by omega)
      subst this
      rw [parseOps_nil] at h
      simp only [Except.ok.injEq] at h
      subst h
      exact ⟨[], rfl, .nil⟩
    | succ n ih =>
      intro i ops hi h
      by_cases hne : i = []
      · subst hne
        rw [parseOps_nil] at h
        simp only [Except.ok.injEq] at h
        subst h
        exact ⟨[], rfl, .nil⟩
      cases ho : Op.fromBytes i with
      | error e => rw [parseOps_error hne ho] at h; simp at h
      | ok x =>
        obtain ⟨rem, op⟩ := x
        have hs := Op.fromBytes_shorter ho
        rw [parseOps_cons ho] at h
        simp only [ebind_ok, ePure, Except.ok.injEq] at h
        obtain ⟨l, hl, rfl⟩ := h
        obtain ⟨ps, hps, hall⟩ := ih rem l (by omega) hl
        obtain ⟨p, rfl, hp⟩ := Op.fromBytes_holds ho
        exact ⟨p :: ps, by simp [hps], .cons hp hall⟩
  exact this i.length i ops le_rfl h

/-- **C34**, failure: if some operation after correctly encoded ones does not decode, the review reports an
error instead of showing a part of the batch. -/
theorem C34_failure_reported (os : List Operation) (h : ∀ o ∈ os, o.Valid) (bad : Bytes) (hne : bad ≠ [])
    (e : PErr) (hbad : Op.fromBytes bad = .error e) :
    numItemsOps (os.flatMap Operation.encode ++ bad) = .error .unknown := by
  have : parseOps (os.flatMap Operation.encode ++ bad) = .error e := by
    induction os with
    | nil => exact parseOps_error hne hbad
    | cons o os ih =>
      rw [List.flatMap_cons, List.append_assoc, parseOps_cons (C31_decode_encode o (h o (by simp)) _),
        ih (fun o ho => h o (by simp [ho]))]
      rfl
  unfold numItemsOps
  rw [this]

example : Op.fromBytes [0x6E, 9] = .error .err := by rfl

/-! ### C38 -/

/-- Items of the whole review: the branch and those of every operation. -/
def totalItems (ops : List Op) : Nat := 1 + (ops.map Op.uiItems).sum

/-- **C38, partial.** With at most 255 items in total, the announced number is the total. -/
theorem C38_announced_partial (i : Bytes) (ops : List Op) (h : parseOps i = .ok ops) (hs : totalItems ops < 256) :
    ∃ n, numItemsOps i = .ok n ∧ n.toNat = totalItems ops := by
  refine ⟨_, by unfold numItemsOps; rw [h], ?_⟩
  simp only [UInt8.toNat_ofNat']
  unfold totalItems at *
  omega

/-- **C38, negated.** In general only the total modulo 256 is announced; a batch of 51 ballots announces no
item at all. -/
theorem C38_announced_truncated (i : Bytes) (ops : List Op) (h : parseOps i = .ok ops) :
    numItemsOps i = .ok (UInt8.ofNat (totalItems ops % 256)) := by
  unfold numItemsOps
  rw [h]
  simp only [Except.ok.injEq]
  apply UInt8.toNat_inj.mp
  simp [totalItems]

def demoBallot : Operation := .ballot ⟨.ed25519, List.replicate 20 7⟩ 12 (List.replicate 32 3) .yay

theorem demoBallot_valid : demoBallot.Valid := by
  simp [demoBallot, Operation.Valid, Account.Valid]

theorem C38_negation :
    ∃ os : List Operation, os.length = 51 ∧ (∀ o ∈ os, o.Valid) ∧
      numItemsOps (os.flatMap Operation.encode) = .ok 0 := by
  refine ⟨List.replicate 51 demoBallot, by simp, ?_, ?_⟩
  · intro o ho
    rw [List.mem_replicate] at ho
    rw [ho.2]; exact demoBallot_valid
  · rw [C38_announced_truncated _ _ (C34_batch _ (by
      intro o ho
      rw [List.mem_replicate] at ho
      rw [ho.2]; exact demoBallot_valid))]
    rfl

/-! ### C39 -/

/-- All (operation, index) pairs of a batch in order. -/
def allFields (ops : List Op) : List (Op × Nat) :=
  ops.flatMap fun op => (List.range op.uiItems).map fun k => (op, k)

theorem allFields_length (ops : List Op) : (allFields ops).length = (ops.map Op.uiItems).sum := by
  induction ops with
  | nil => rfl
  | cons op ops ih => simp [allFields, List.length_flatMap] at ih ⊢

theorem findOpFuel_spec (f : Nat) (i : Bytes) (ops : List Op) (idx : UInt8) (hf : i.length < f)
    (h : parseOps i = .ok ops) (hs : (ops.map Op.uiItems).sum < 256) :
    findOpFuel f i idx = .ok (((allFields ops)[idx.toNat]?).map fun x => (x.1, UInt8.ofNat x.2)) := by
  induction f generalizing i ops idx with
  | zero => omega
  | succ f ih =>
    unfold findOpFuel
    by_cases hne : i = []
    · subst hne
      rw [parseOps_nil] at h
      simp only [Except.ok.injEq] at h
      subst h
      simp [parseNext, allFields]
    · cases ho : Op.fromBytes i with
      | error e => rw [parseOps_error hne ho] at h; simp at h
      | ok x =>
        obtain ⟨rem, op⟩ := x
        have hsh := Op.fromBytes_shorter ho
        rw [parseOps_cons ho] at h
        simp only [ebind_ok, ePure, Except.ok.injEq] at h
        obtain ⟨l, hl, rfl⟩ := h
        rw [parseNext_of ho]
        simp only [List.map_cons, List.sum_cons] at hs
        have hn : (UInt8.ofNat op.uiItems).toNat = op.uiItems := by
          simp only [UInt8.toNat_ofNat']; omega
        have hall : allFields (op :: l) = ((List.range op.uiItems).map fun k => (op, k)) ++ allFields l := rfl
        simp only [gt_iff_lt, UInt8.lt_iff_toNat_lt, hn]
        split
        · rename_i hlt
          rw [hall, List.getElem?_append_left (by simpa using hlt)]
          simp [hlt]
        · rename_i hge
          rw [ih rem l (idx - UInt8.ofNat op.uiItems) (by omega) hl (by omega), hall,
            List.getElem?_append_right (by simpa using hge)]
          have : (idx - UInt8.ofNat op.uiItems).toNat = idx.toNat - op.uiItems := by
            rw [UInt8.toNat_sub_of_le _ _ (by rw [UInt8.le_iff_toNat_le, hn]; omega), hn]
          simp [this]

theorem allFields_lt {ops : List Op} {k : Nat} {x : Op × Nat} (h : (allFields ops)[k]? = some x) :
    x.1 ∈ ops ∧ x.2 < x.1.uiItems := by
  have := List.mem_of_getElem? h
  simp only [allFields, List.mem_flatMap, List.mem_map, List.mem_range] at this
  obtain ⟨op, hop, k, hk, rfl⟩ := this
  exact ⟨hop, hk⟩

theorem mem_sum_le {l : List Nat} {x : Nat} (h : x ∈ l) : x ≤ l.sum := by
  induction l with
  | nil => simp at h
  | cons y ys ih =>
    simp only [List.mem_cons] at h
    simp only [List.sum_cons]
    rcases h with rfl | h
    · omega
    · have := ih h; omega

/-- **C39.** With at most 255 items in total: item 0 is the branch, item `n + 1` is the `n`-th of the items
of all operations taken in order, and past them there is nothing. -/
theorem C39_item_order (cr : Crypto) (branch i : Bytes) (ops : List Op) (h : parseOps i = .ok ops)
    (hs : totalItems ops < 256) :
    (signOpItem cr branch i 0 = do return ⟨ascii "Operation", ← branchText cr branch⟩) ∧
    ∀ n : UInt8, n ≠ 0 →
      signOpItem cr branch i n =
        match (allFields ops)[n.toNat - 1]? with
        | some (op, k) => op.item cr k
        | none => .error .noData := by
  unfold totalItems at hs
  refine ⟨rfl, ?_⟩
  intro n hn
  have hn0 : n.toNat ≠ 0 := fun h0 => hn (UInt8.toNat_inj.mp (by simpa using h0))
  unfold signOpItem findOp
  rw [if_neg hn, findOpFuel_spec _ i ops _ (by omega) h (by omega)]
  have : (n - 1).toNat = n.toNat - 1 := by
    rw [UInt8.toNat_sub_of_le _ _ (by rw [UInt8.le_iff_toNat_le]; simpa using by omega)]; rfl
  rw [this]
  simp only [ebind_ok_left]
  cases hx : (allFields ops)[n.toNat - 1]? with
  | none => rfl
  | some x =>
    obtain ⟨op, k⟩ := x
    obtain ⟨hop, hk⟩ := allFields_lt hx
    have hle : op.uiItems ≤ (ops.map Op.uiItems).sum := mem_sum_le (List.mem_map_of_mem hop)
    have : (UInt8.ofNat k).toNat = k := by simp only [UInt8.toNat_ofNat']; simp only at hk; omega
    simp [this]

/-- The fields in order are exactly what a reader expects: operation after operation, each index once. -/
theorem allFields_split (a b : List Op) (op : Op) (k : Nat) (hk : k < op.uiItems) :
    (allFields (a ++ op :: b))[(a.map Op.uiItems).sum + k]? = some (op, k) := by
  have : allFields (a ++ op :: b) = allFields a ++ (((List.range op.uiItems).map fun k => (op, k)) ++ allFields b) := by
    simp [allFields]
  rw [this, List.getElem?_append_right (by rw [allFields_length]; omega), allFields_length,
    List.getElem?_append_left (by simpa using by omega)]
  simp [show (a.map Op.uiItems).sum + k - (a.map Op.uiItems).sum = k by omega, hk]

/-- **C39**, located: item `k` of the operation after the operations `a` has number
`1 + (items of a) + k` in the review. -/
theorem C39_located (cr : Crypto) (branch i : Bytes) (a b : List Op) (op : Op)
    (h : parseOps i = .ok (a ++ op :: b)) (hs : totalItems (a ++ op :: b) < 256) (k : Nat)
    (hk : k < op.uiItems) :
    signOpItem cr branch i (UInt8.ofNat (1 + (a.map Op.uiItems).sum + k)) = op.item cr k := by
  have hs' := hs
  simp only [totalItems, List.map_append, List.map_cons, List.sum_append, List.sum_cons] at hs'
  have hn : (UInt8.ofNat (1 + (a.map Op.uiItems).sum + k)).toNat = 1 + (a.map Op.uiItems).sum + k := by
    simp only [UInt8.toNat_ofNat']; omega
  rw [(C39_item_order cr branch i _ h hs).2 _ (by
    intro h0
    have := congrArg UInt8.toNat h0
    rw [hn] at this
    simp at this), hn,
    show 1 + (a.map Op.uiItems).sum + k - 1 = (a.map Op.uiItems).sum + k by omega, allFields_split a b op k hk]

/-! ### C41 -/

/-- **C41, partial.** Every operation of the batch that is not of a dropped kind has its own items, starting
with its type: it is visible in the review (up to 255 items). -/
theorem C41_visible_partial (cr : Crypto) (branch i : Bytes) (a b : List Op) (op : Op)
    (h : parseOps i = .ok (a ++ op :: b)) (hs : totalItems (a ++ op :: b) < 256) (hop : op ≠ .anonymous) :
    2 ≤ op.uiItems ∧
    ∃ f, signOpItem cr branch i (UInt8.ofNat (1 + (a.map Op.uiItems).sum)) = .ok f ∧
      f.title = ascii "Type" := by
  have h2 : 2 ≤ op.uiItems := by cases op <;> first | exact absurd rfl hop | (simp only [Op.uiItems]; omega)
  refine ⟨h2, ?_⟩
  have := C39_located cr branch i a b op h hs 0 (by omega)
  rw [Nat.add_zero] at this
  rw [this]
  cases op <;> first | exact absurd rfl hop | exact ⟨_, rfl, rfl⟩

/-- **C41, negated.** Nonce revelations and denunciations leave no trace: the review of a batch with such an
operation anywhere in it is, item for item, the review of the batch without it. -/
theorem C41_negation (cr : Crypto) (branch : Bytes) (a b : List Operation) (o : Operation)
    (hv : ∀ x ∈ a ++ o :: b, x.Valid) (ho : Op.ofSpec o = .anonymous)
    (hs : totalItems ((a ++ b).map Op.ofSpec) < 256) :
    numItemsOps ((a ++ o :: b).flatMap Operation.encode) = numItemsOps ((a ++ b).flatMap Operation.encode) ∧
    ∀ n, signOpItem cr branch ((a ++ o :: b).flatMap Operation.encode) n =
      signOpItem cr branch ((a ++ b).flatMap Operation.encode) n := by
  have h1 := C34_batch (a ++ o :: b) hv
  have h2 := C34_batch (a ++ b) (fun x hx => hv x (by simp at hx ⊢; tauto))
  have hsum : totalItems ((a ++ o :: b).map Op.ofSpec) = totalItems ((a ++ b).map Op.ofSpec) := by
    simp [totalItems, ho, Op.uiItems]
  have hall : allFields ((a ++ o :: b).map Op.ofSpec) = allFields ((a ++ b).map Op.ofSpec) := by
    simp [allFields, ho, Op.uiItems]
  refine ⟨?_, ?_⟩
  · rw [C38_announced_truncated _ _ h1, C38_announced_truncated _ _ h2, hsum]
  · intro n
    by_cases hn : n = 0
    · subst hn; rfl
    · rw [(C39_item_order cr branch _ _ h1 (by rw [hsum]; exact hs)).2 n hn,
        (C39_item_order cr branch _ _ h2 hs).2 n hn, hall]

example : Op.ofSpec (.seedNonceRevelation 5 (List.replicate 32 1)) = .anonymous := rfl

end Tezos
