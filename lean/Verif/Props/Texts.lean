import Verif.Origins
import Verif.Props.Identify
import Verif.Props.Zui
/-
How long the texts of the reviews are: short enough for the navigation theorem (C37) to apply to every review the
app opens.
-/
set_option linter.unusedSimpArgs false
namespace Tezos
open Spec

/-- Every text of the review is at most 128 bytes long. -/
def Viewer.Short (v : Viewer) : Prop := ∀ n f, v.item n = .ok f → f.text.length ≤ 128

theorem base58Into_length {cap : Nat} {l t : Bytes} (h : base58Into cap l = .ok t) : t.length ≤ cap := by
  obtain ⟨h1, rfl⟩ := base58Into_ok.mp h
  exact h1

theorem Addr.base58_length {a : Addr} {t : Bytes} (h : a.base58 = .ok t) : t.length ≤ 128 := by
  unfold Addr.base58 at h
  have := base58Into_length h
  omega

theorem pkhText_length {cr : Crypto} {p : Pkh} {t : Bytes} (h : pkhText cr p = .ok t) : t.length ≤ 128 := by
  unfold pkhText at h
  simp only [ebind_ok] at h
  obtain ⟨a, -, h⟩ := h
  exact Addr.base58_length h

theorem contractText_length {cr : Crypto} {c : ContractID} {t : Bytes} (h : c.text cr = .ok t) : t.length ≤ 128 := by
  unfold ContractID.text at h
  simp only [ebind_ok] at h
  obtain ⟨a, -, h⟩ := h
  have := base58Into_length h
  omega

theorem keyText_length {cr : Crypto} {c : Curve} {k t : Bytes} (h : keyText cr c k = .ok t) : t.length ≤ 128 := by
  unfold keyText at h
  simp only [ebind_ok] at h
  obtain ⟨a, -, h⟩ := h
  have := base58Into_length h
  omega

theorem branchText_length {cr : Crypto} {b t : Bytes} (h : branchText cr b = .ok t) : t.length ≤ 128 := by
  unfold branchText at h
  simp only [ebind_ok] at h
  obtain ⟨a, -, h⟩ := h
  have := base58Into_length h
  omega

theorem proposalText_length {cr : Crypto} {b t : Bytes} (h : proposalText cr b = .ok t) : t.length ≤ 128 := by
  unfold proposalText at h
  simp only [ebind_ok] at h
  obtain ⟨a, -, h⟩ := h
  have := base58Into_length h
  omega

theorem unknownText_length {cr : Crypto} {b t : Bytes} (h : unknownText cr b = .ok t) : t.length ≤ 128 := by
  unfold unknownText at h
  simp only [ebind_ok] at h
  obtain ⟨a, -, c, -, h⟩ := h
  have := base58Into_length h
  omega

theorem chainIdText_length {cr : Crypto} {id : UInt32} {t : Bytes} (h : chainIdText cr id = .ok t) :
    t.length ≤ 128 := by
  unfold chainIdText at h
  simp only [ebind_ok] at h
  obtain ⟨a, -, h⟩ := h
  have := base58Into_length h
  omega

theorem michelsonText_length {cr : Crypto} (hs : cr.Sized) {m t : Bytes} (h : michelsonText cr m = .ok t) :
    t.length ≤ 128 := by
  unfold michelsonText at h
  simp only [ebind_ok, orUnknown_ok, ePure, Except.ok.injEq] at h
  obtain ⟨d, hd, rfl⟩ := h
  have := hs.sha256 hd
  rw [hexEncode_length]
  omega

theorem decimal_short {n : Nat} (h : n < 2 ^ 32) : (decimal n).length ≤ 10 :=
  decimal_length_le (by omega) (by omega)

theorem decimalI32_length (x : UInt32) : (decimalI32 x).length ≤ 128 := by
  unfold decimalI32
  have := x.toNat_lt
  split
  · have := decimal_short (n := x.toNat) (by omega)
    omega
  · have := decimal_short (n := 2 ^ 32 - x.toNat) (by omega)
    simp only [List.length_cons]
    omega

theorem numText_length {z : Zarith} (hz : z.isNegative = none) {t : Bytes} (h : numText z = .ok t) : t.length ≤ 128 := by
  unfold numText at h
  simp only [ebind_ok, ePure, Except.ok.injEq] at h
  obtain ⟨v, hv, rfl⟩ := h
  have := decimal_short (numValue_ok hz hv).2
  omega

theorem amountText_length {n : Nat} (hn : n < 2 ^ 32) {t : Bytes} (h : amountText n = .ok t) : t.length ≤ 128 := by
  have hl := decimal_short hn
  have hp : 0 < (decimal n).length := List.length_pos_of_ne_nil (decimal_ne_nil n)
  have hh : decimal n = [48] ∨ ∃ c cs, decimal n = c :: cs ∧ c ≠ 48 := by
    by_cases h : n = 0
    · subst h; exact .inl (by simp [decimal])
    · exact .inr (decimal_head n h)
  have e := intstrToFpstr_eq (t := decimal n) (d := 6) (k := 12 - (decimal n).length) (by omega)
    (decimal_isDigit n) (decimal_ne_nil n) hh (by omega) (by omega)
  unfold amountText at h
  rw [e] at h
  simp only [Except.ok.injEq] at h
  rw [← h]
  simp only [List.length_append, List.length_cons, List.length_take, List.length_drop, List.length_replicate]
  omega

theorem fpText_length {z : Zarith} (hz : z.isNegative = none) {t : Bytes} (h : fpText z = .ok t) : t.length ≤ 128 := by
  unfold fpText at h
  simp only [ebind_ok] at h
  obtain ⟨v, hv, h⟩ := h
  exact amountText_length (numValue_ok hz hv).2 h

theorem knownBakers_short : ∀ b ∈ knownBakers, b.name.length ≤ 128 := by decide +kernel

theorem bakerLookup_length {p h t : Bytes} (hb : bakerLookup p h = some t) : t.length ≤ 128 := by
  unfold bakerLookup bakerLookupIn at hb
  split at hb
  · simp only [Option.map_eq_some_iff] at hb
    obtain ⟨b, hb, rfl⟩ := hb
    exact knownBakers_short b (List.mem_of_getElem? hb)
  · simp at hb

theorem Op.fromBytes_WF {i rem : Bytes} {op : Op} (h : Op.fromBytes i = .ok (rem, op)) : op.WF := by
  by_cases hk : op.fieldsKept = true
  · exact ((Op.fromBytes_ok_kept hk).mp h).2
  · cases op <;> trivial

theorem field_length {t : Bytes} {x : Except VErr Bytes} {f : Field} (h : (do return (⟨t, ← x⟩ : Field)) = .ok f)
    (hx : ∀ y, x = .ok y → y.length ≤ 128) : f.text.length ≤ 128 := by
  simp only [ebind_ok, ePure, Except.ok.injEq] at h
  obtain ⟨y, hy, rfl⟩ := h
  exact hx y hy

theorem okField_length {t x : Bytes} {f : Field} (h : (Except.ok ⟨t, x⟩ : Except VErr Field) = .ok f)
    (hx : x.length ≤ 128) : f.text.length ≤ 128 := by
  simp only [Except.ok.injEq] at h
  subst h
  exact hx

theorem endorsementItem_length {l : UInt32} {n : Nat} {f : Field} (h : endorsementItem l n = .ok f) :
    f.text.length ≤ 128 := by
  unfold endorsementItem at h
  split at h
  · exact okField_length h (by decide)
  · exact okField_length h (decimalI32_length l)
  · simp at h

theorem Op.item_length {cr : Crypto} (hs : cr.Sized) {op : Op} (hw : op.Loose) {n : Nat} {f : Field}
    (h : op.item cr n = .ok f) : f.text.length ≤ 128 := by
  cases op with
  | transfer t =>
    obtain ⟨⟨h1, ⟨_, h2⟩, ⟨_, h3⟩, ⟨_, h4⟩, ⟨_, h5⟩⟩, ⟨_, h6⟩, h7, h8⟩ : t.WF := hw
    simp only [Op.item, Transfer.item] at h
    split at h
    · refine okField_length h ?_
      split <;> decide
    · exact field_length h fun _ => pkhText_length
    · exact field_length h fun _ => contractText_length
    · exact field_length h fun _ => fpText_length ‹_›
    · exact field_length h fun _ => fpText_length ‹_›
    · split at h
      · exact field_length h fun _ => michelsonText_length hs
      · exact okField_length h (by decide)
    · exact field_length h fun _ => numText_length ‹_›
    · exact field_length h fun _ => numText_length ‹_›
    · exact field_length h fun _ => numText_length ‹_›
    · simp at h
  | delegation t =>
    obtain ⟨⟨h1, h2, h3, h4, h5⟩, h6⟩ := hw
    simp only [Op.item, Delegation.item] at h
    split at h
    · refine okField_length h ?_
      split <;> decide
    · exact field_length h fun _ => pkhText_length
    · split at h
      · split at h
        · rename_i hb
          exact okField_length h (bakerLookup_length hb)
        · exact field_length h fun _ => pkhText_length
      · exact okField_length h (by decide)
    · exact field_length h fun _ => fpText_length ‹_›
    · exact field_length h fun _ => numText_length ‹_›
    · exact field_length h fun _ => numText_length ‹_›
    · exact field_length h fun _ => numText_length ‹_›
    · simp at h
  | endorsement l => exact endorsementItem_length h
  | endorsementWithSlot e =>
    simp only [Op.item, EndorsementWithSlot.item] at h
    split at h
    · exact okField_length h (by decide)
    · exact field_length h fun _ => branchText_length
    · refine okField_length h ?_
      have := e.slot.toNat_lt
      have := decimal_short (n := e.slot.toNat) (by omega)
      omega
    · exact endorsementItem_length h
  | ballot b =>
    simp only [Op.item, Ballot.item] at h
    split at h
    · exact okField_length h (by decide)
    · exact field_length h fun _ => pkhText_length
    · exact okField_length h (decimalI32_length _)
    · exact field_length h fun _ => proposalText_length
    · refine okField_length h ?_
      split <;> decide
    · simp at h
  | reveal r =>
    obtain ⟨⟨h1, h2, h3, h4, h5⟩, h6⟩ := hw
    simp only [Op.item, Reveal.item] at h
    split at h
    · exact okField_length h (by decide)
    · exact field_length h fun _ => pkhText_length
    · exact field_length h fun _ => keyText_length
    · exact field_length h fun _ => fpText_length ‹_›
    · exact field_length h fun _ => numText_length ‹_›
    · exact field_length h fun _ => numText_length ‹_›
    · exact field_length h fun _ => numText_length ‹_›
    · simp at h
  | proposals p =>
    simp only [Op.item, Proposals.item] at h
    split at h
    · exact okField_length h (by decide)
    · exact field_length h fun _ => pkhText_length
    · exact okField_length h (decimalI32_length _)
    · split at h
      · split at h
        · simp at h
        · exact field_length h fun _ => proposalText_length
      · simp at h
  | origination o =>
    obtain ⟨⟨h1, ⟨_, h2⟩, ⟨_, h3⟩, ⟨_, h4⟩, ⟨_, h5⟩⟩, ⟨_, h6⟩, h7⟩ : o.WF := hw
    simp only [Op.item, Origination.item] at h
    split at h
    · exact okField_length h (by decide)
    · exact field_length h fun _ => pkhText_length
    · exact field_length h fun _ => fpText_length ‹_›
    · split at h
      · exact field_length h fun _ => pkhText_length
      · exact okField_length h (by decide)
    · exact field_length h fun _ => fpText_length ‹_›
    · exact field_length h fun _ => michelsonText_length hs
    · exact field_length h fun _ => michelsonText_length hs
    · exact field_length h fun _ => numText_length ‹_›
    · exact field_length h fun _ => numText_length ‹_›
    · exact field_length h fun _ => numText_length ‹_›
    · simp at h
  | activateAccount a =>
    obtain ⟨h1, h2, h3⟩ : a.WF := hw
    simp only [Op.item, ActivateAccount.item] at h
    split at h
    · exact okField_length h (by decide)
    · exact field_length h fun _ => pkhText_length
    · exact okField_length h (by rw [hexEncode_length]; omega)
    · simp at h
  | failingNoop d =>
    simp only [Op.item, failingNoopItem] at h
    split at h
    · exact okField_length h (by decide)
    · exact field_length h fun _ => michelsonText_length hs
    · simp at h
  | unknown d =>
    simp only [Op.item, unknownItem] at h
    split at h
    · exact okField_length h (by decide)
    · exact field_length h fun _ => unknownText_length
    · simp at h
  | anonymous => simp [Op.item] at h

theorem findOpFuel_WF {f : Nat} {i : Bytes} {n k : UInt8} {op : Op} (h : findOpFuel f i n = .ok (some (op, k))) :
    op.WF := by
  induction f generalizing i n with
  | zero => simp [findOpFuel] at h
  | succ f ih =>
    unfold findOpFuel at h
    split at h
    · simp at h
    · simp at h
    · rename_i rem op' hp
      simp only at h
      split at h
      · simp only [Except.ok.injEq, Option.some.injEq, Prod.mk.injEq] at h
        rw [← h.1]
        exact Op.fromBytes_WF (parseNext_some hp)
      · exact ih h

theorem signOpItem_length {cr : Crypto} (hs : cr.Sized) {branch ops : Bytes} {n : UInt8} {f : Field}
    (h : signOpItem cr branch ops n = .ok f) : f.text.length ≤ 128 := by
  unfold signOpItem at h
  split at h
  · exact field_length h fun _ => branchText_length
  · simp only [ebind_ok] at h
    obtain ⟨o, ho, h⟩ := h
    split at h
    · simp at h
    · exact Op.item_length hs (findOpFuel_WF ho).loose h

/-- The review of a message to sign has short texts. -/
theorem reviewOf_short {cr : Crypto} (hs : cr.Sized) {digest : Bytes} (hd : digest.length = 32) (msg : Bytes) :
    (reviewOf cr digest msg).Short := by
  intro n f h
  unfold reviewOf at h
  split at h
  · exact signOpItem_length hs h
  · simp only [signMichelsonItem] at h
    split at h
    · exact okField_length h (by rw [hexEncode_length]; omega)
    · simp at h

theorem firstOpReview_short {cr : Crypto} (hs : cr.Sized) (branch : Bytes) {op : Op} (hw : op.Loose) :
    (firstOpReview cr branch op).Short := by
  intro n f h
  simp only [firstOpReview] at h
  split at h
  · exact field_length h fun _ => branchText_length
  · exact Op.item_length hs hw h

theorem ChainID.alias_length {cr : Crypto} {c : ChainID} {t : Bytes} (h : c.alias cr = .ok t) :
    t.length ≤ 128 := by
  cases c with
  | any => simp only [ChainID.alias, Except.ok.injEq] at h; subst h; decide
  | mainnet => simp only [ChainID.alias, Except.ok.injEq] at h; subst h; decide
  | custom id => exact chainIdText_length h

/-- What a pending review must satisfy for its texts to be short: a digest has 32 bytes, and an operation comes from
the parser. Every review the app opens does. -/
def View.Tidy : View → Prop
  | .sign _ d _ _ => d.length = 32
  | .bakingSign _ _ _ op _ => op.WF
  | _ => True

theorem View.viewer_short {cr : Crypto} (hs : cr.Sized) {v : View} (hv : v.Tidy) (mem : SwapBuf) :
    (v.viewer cr mem).Short := by
  intro n f h
  cases v with
  | sign hh d r m =>
    cases r with
    | none =>
      simp only [View.viewer, signMichelsonItem] at h
      split at h
      · exact okField_length h (by rw [hexEncode_length, hv]; omega)
      · simp at h
    | some r => exact signOpItem_length hs h
  | bakingSign hh d r op m => exact firstOpReview_short hs _ (Op.WF.reread hv _) n f (by rwa [← View.viewer_first cr mem])
  | addr a _ _ =>
    simp only [View.viewer] at h
    split at h
    · exact field_length h fun _ => Addr.base58_length
    · simp at h
  | authorize _ a | deauthorize a | query _ a _ =>
    simp only [View.viewer] at h
    split at h
    · exact okField_length h (by decide)
    split at h
    · exact field_length h fun _ => Addr.base58_length
    · simp at h
  | setup _ a main test chain =>
    simp only [View.viewer] at h
    have := main.toNat_lt
    have := test.toNat_lt
    have d1 := decimal_short (n := main.toNat) (by omega)
    have d2 := decimal_short (n := test.toNat) (by omega)
    split at h
    · exact okField_length h (by decide)
    split at h
    · exact field_length h fun _ => Addr.base58_length
    split at h
    · exact field_length h fun _ => ChainID.alias_length
    split at h
    · exact okField_length h (by omega)
    split at h
    · exact okField_length h (by omega)
    · simp at h

theorem Opens.tidy {env : Env} (hs : env.cr.Sized) {s : Dev} {p1 p2 : UInt8} {payload : Option Bytes} {c : Cmd}
    {v : View} {p : Option (Path × Curve)} {u : Upl} (ho : Opens env s p1 p2 payload c v p u) : v.Tidy := by
  cases ho with
  | operation hu hc hp hd ho => exact hs.blake2b hd
  | michelson hu hc hp hd => exact hs.blake2b hd
  | baking hu hc hp hk hd ho hn hop => exact Op.fromBytes_WF (parseNext_some hn)
  | _ => trivial

/-- No text of a review is longer than 128 bytes, so each fits the paging of the display. -/
theorem C37_texts_fit (cfg : Config) (m : Moment) (v : View) (hs : m.env.cr.Sized) (ho : m.Opens cfg v) (cr : Crypto)
    (hcr : cr.Sized) (mem : SwapBuf) : (v.viewer cr mem).Short := by
  obtain ⟨buf, rx, c, p, u, _, ho, _⟩ := ho.ex
  exact View.viewer_short hcr (Opens.tidy hs ho) mem

end Tezos
