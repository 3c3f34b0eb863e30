import Verif.Props.Texts
/-
What cannot abort: parsing operations, and drawing the reviews the app opens.
-/
set_option linter.unusedSimpArgs false
namespace Tezos
open Spec

/-- The computation does not end with the error `e`. -/
def Never {ε α : Type} (e : ε) (x : Except ε α) : Prop := x ≠ .error e

theorem Never.ok {ε α : Type} {e : ε} (a : α) : Never e (.ok a : Except ε α) := by
  intro h; cases h

theorem Never.pure {ε α : Type} {e : ε} (a : α) : Never e (Pure.pure a : Except ε α) := Never.ok a

theorem Never.error {ε α : Type} {e e' : ε} (h : e' ≠ e) : Never e (.error e' : Except ε α) := by
  intro h'; cases h'; exact h rfl

theorem Never.bind {ε α β : Type} {e : ε} {x : Except ε α} {f : α → Except ε β} (hx : Never e x)
    (hf : ∀ a, x = .ok a → Never e (f a)) : Never e (x >>= f) := by
  intro h
  rcases ebind_error.mp h with h | ⟨a, h1, h2⟩
  · exact hx h
  · exact hf a h1 h2

theorem Never.of_ok {ε α : Type} {e : ε} {x : Except ε α} {a : α} (h : x = .ok a) : Never e x := by
  rw [h]; exact Never.ok a

/-! ### Parsers -/

theorem nTake_calm (n : Nat) (i : Bytes) : Never .panic (nTake n i) := by
  unfold nTake
  split
  · exact Never.ok _
  · exact Never.error (by decide)

theorem nU8_calm (i : Bytes) : Never .panic (nU8 i) := by
  cases i
  · exact Never.error (by decide)
  · exact Never.ok _

theorem nBeU16_calm (i : Bytes) : Never .panic (nBeU16 i) :=
  (nTake_calm _ _).bind fun ⟨_, _⟩ _ => Never.pure _

theorem nBeU32_calm (i : Bytes) : Never .panic (nBeU32 i) :=
  (nTake_calm _ _).bind fun ⟨_, _⟩ _ => Never.pure _

theorem nBeU64_calm (i : Bytes) : Never .panic (nBeU64 i) :=
  (nTake_calm _ _).bind fun ⟨_, _⟩ _ => Never.pure _

theorem nLenBytes_calm (i : Bytes) : Never .panic (nLenBytes i) :=
  (nBeU32_calm _).bind fun ⟨_, _⟩ _ => nTake_calm _ _

theorem nMap_calm {α β : Type} (f : α → β) {p : PRes α} (h : Never .panic p) : Never .panic (nMap f p) :=
  h.bind fun ⟨_, _⟩ _ => Never.pure _

theorem nCond_calm {α : Type} (c : Bool) {p : Bytes → PRes α} (i : Bytes) (h : ∀ i, Never .panic (p i)) :
    Never .panic (nCond c p i) := by
  unfold nCond
  split
  · exact (h i).bind fun ⟨_, _⟩ _ => Never.pure _
  · exact Never.ok _

theorem boolean_calm (i : Bytes) : Never .panic (boolean i) :=
  (nU8_calm _).bind fun ⟨_, _⟩ _ => Never.pure _

theorem zarith_calm (s : Bool) (i : Bytes) : Never .panic (Zarith.fromBytes s i) :=
  (nTake_calm _ _).bind fun ⟨_, _⟩ _ => Never.pure _

theorem publicKeyHash_calm (i : Bytes) : Never .panic (publicKeyHash i) := by
  refine (nU8_calm _).bind fun ⟨_, _⟩ _ => (nTake_calm _ _).bind fun ⟨_, _⟩ _ => ?_
  dsimp only
  split
  · exact Never.error (by decide)
  · exact Never.pure _

theorem publicKey_calm (i : Bytes) : Never .panic (publicKey i) := by
  refine (nU8_calm _).bind fun ⟨_, _⟩ _ => ?_
  dsimp only
  split
  · exact Never.error (by decide)
  · exact (nTake_calm _ _).bind fun ⟨_, _⟩ _ => Never.pure _

theorem ContractID.calm (i : Bytes) : Never .panic (ContractID.fromBytes i) := by
  refine (nU8_calm _).bind fun ⟨_, _⟩ _ => ?_
  dsimp only
  split
  · exact (publicKeyHash_calm _).bind fun ⟨_, _⟩ _ => Never.pure _
  split
  · exact (nTake_calm _ _).bind fun ⟨_, _⟩ _ => (nU8_calm _).bind fun ⟨_, _⟩ _ => Never.pure _
  · exact Never.error (by decide)

theorem Entrypoint.calm (i : Bytes) : Never .panic (Entrypoint.fromBytes i) := by
  refine (nU8_calm _).bind fun ⟨_, _⟩ _ => ?_
  dsimp only
  repeat' split
  all_goals first
    | exact Never.pure _
    | exact Never.error (by decide)
    | exact (nU8_calm _).bind fun ⟨_, _⟩ _ => (nTake_calm _ _).bind fun ⟨_, _⟩ _ => Never.pure _

theorem Parameters.calm (i : Bytes) : Never .panic (Parameters.fromBytes i) :=
  (Entrypoint.calm _).bind fun ⟨_, _⟩ _ => (nLenBytes_calm _).bind fun ⟨_, _⟩ _ => Never.pure _

theorem Manager.calm (i : Bytes) : Never .panic (Manager.fromBytes i) :=
  (publicKeyHash_calm _).bind fun ⟨_, _⟩ _ => (zarith_calm _ _).bind fun ⟨_, _⟩ _ => (zarith_calm _ _).bind fun ⟨_, _⟩ _ =>
    (zarith_calm _ _).bind fun ⟨_, _⟩ _ => (zarith_calm _ _).bind fun ⟨_, _⟩ _ => Never.pure _

theorem Transfer.calm (i : Bytes) : Never .panic (Transfer.fromBytes i) :=
  (Manager.calm _).bind fun ⟨_, _⟩ _ => (zarith_calm _ _).bind fun ⟨_, _⟩ _ => (ContractID.calm _).bind fun ⟨_, _⟩ _ =>
    (boolean_calm _).bind fun ⟨_, _⟩ _ => (nCond_calm _ _ Parameters.calm).bind fun ⟨_, _⟩ _ => Never.pure _

theorem Delegation.calm (i : Bytes) : Never .panic (Delegation.fromBytes i) :=
  (Manager.calm _).bind fun ⟨_, _⟩ _ => (boolean_calm _).bind fun ⟨_, _⟩ _ =>
    (nCond_calm _ _ publicKeyHash_calm).bind fun ⟨_, _⟩ _ => Never.pure _

theorem Script.calm (i : Bytes) : Never .panic (Script.fromBytes i) :=
  (nLenBytes_calm _).bind fun ⟨_, _⟩ _ => (nLenBytes_calm _).bind fun ⟨_, _⟩ _ => Never.pure _

theorem Origination.calm (i : Bytes) : Never .panic (Origination.fromBytes i) :=
  (Manager.calm _).bind fun ⟨_, _⟩ _ => (zarith_calm _ _).bind fun ⟨_, _⟩ _ => (boolean_calm _).bind fun ⟨_, _⟩ _ =>
    (nCond_calm _ _ publicKeyHash_calm).bind fun ⟨_, _⟩ _ => (Script.calm _).bind fun ⟨_, _⟩ _ => Never.pure _

theorem Reveal.calm (i : Bytes) : Never .panic (Reveal.fromBytes i) :=
  (Manager.calm _).bind fun ⟨_, _⟩ _ => (publicKey_calm _).bind fun ⟨_, _⟩ _ => Never.pure _

theorem innerEndorsement_calm (i : Bytes) : Never .panic (innerEndorsement i) := by
  refine (nBeU32_calm _).bind fun ⟨_, _⟩ _ => (nTake_calm _ _).bind fun ⟨_, _⟩ _ => (nU8_calm _).bind fun ⟨_, _⟩ _ => ?_
  dsimp only
  split
  · exact Never.error (by decide)
  · refine (nBeU32_calm _).bind fun ⟨_, _⟩ _ => ?_
    dsimp only
    split
    · exact Never.error (by decide)
    · exact (nTake_calm _ _).bind fun ⟨_, _⟩ _ => Never.pure _

theorem EndorsementWithSlot.calm (i : Bytes) : Never .panic (EndorsementWithSlot.fromBytes i) :=
  (innerEndorsement_calm _).bind fun ⟨_, _⟩ _ => (nBeU16_calm _).bind fun ⟨_, _⟩ _ => Never.pure _

theorem DoubleEndorsementEvidence.calm (i : Bytes) : Never .panic (DoubleEndorsementEvidence.fromBytes i) :=
  (innerEndorsement_calm _).bind fun ⟨_, _⟩ _ => (innerEndorsement_calm _).bind fun ⟨_, _⟩ _ =>
    (nBeU16_calm _).bind fun ⟨_, _⟩ _ => Never.pure _

theorem Proposals.calm (i : Bytes) : Never .panic (Proposals.fromBytes i) := by
  refine (publicKeyHash_calm _).bind fun ⟨_, _⟩ _ => (nBeU32_calm _).bind fun ⟨_, _⟩ _ =>
    (nLenBytes_calm _).bind fun ⟨_, _⟩ _ => ?_
  dsimp only
  split
  · exact Never.error (by decide)
  · exact Never.pure _

theorem Ballot.calm (i : Bytes) : Never .panic (Ballot.fromBytes i) := by
  refine (publicKeyHash_calm _).bind fun ⟨_, _⟩ _ => (nBeU32_calm _).bind fun ⟨_, _⟩ _ =>
    (nTake_calm _ _).bind fun ⟨_, _⟩ _ => (nU8_calm _).bind fun ⟨_, _⟩ _ => ?_
  dsimp only
  split
  · exact Never.error (by decide)
  · exact Never.pure _

theorem ActivateAccount.calm (i : Bytes) : Never .panic (ActivateAccount.fromBytes i) :=
  (nTake_calm _ _).bind fun ⟨_, _⟩ _ => (nTake_calm _ _).bind fun ⟨_, _⟩ _ => Never.pure _

theorem SeedNonceRevelation.calm (i : Bytes) : Never .panic (SeedNonceRevelation.fromBytes i) :=
  (nBeU32_calm _).bind fun ⟨_, _⟩ _ => (nTake_calm _ _).bind fun ⟨_, _⟩ _ => Never.pure _

theorem fitnessesCount_calm (i : Bytes) : Never .panic (fitnessesCount i) := by
  induction i using fitnessesCount.induct with
  | case1 => unfold fitnessesCount; exact Never.ok _
  | case2 b0 bs e h =>
    unfold fitnessesCount
    split
    · rename_i h'
      intro hp
      cases hp
      exact nLenBytes_calm _ h'
    · rename_i h'
      rw [h] at h'
      cases h'
  | case3 b0 bs rem x h ih =>
    unfold fitnessesCount
    split
    · rename_i h'
      rw [h] at h'
      cases h'
    · rename_i h'
      rw [h] at h'
      cases h'
      exact ih.bind fun _ _ => Never.pure _

theorem FullBlockHeader.calm (i : Bytes) : Never .panic (FullBlockHeader.fromBytes i) := by
  refine (nBeU32_calm _).bind fun ⟨_, _⟩ _ => (nU8_calm _).bind fun ⟨_, _⟩ _ => (nTake_calm _ _).bind fun ⟨_, _⟩ _ =>
    (nBeU64_calm _).bind fun ⟨_, _⟩ _ => (nU8_calm _).bind fun ⟨_, _⟩ _ => (nTake_calm _ _).bind fun ⟨_, _⟩ _ =>
    (nBeU32_calm _).bind fun ⟨_, _⟩ _ => ?_
  dsimp only
  split
  · exact Never.error (by decide)
  · exact (fitnessesCount_calm _).bind fun _ _ => (nTake_calm _ _).bind fun ⟨_, _⟩ _ =>
      (nBeU16_calm _).bind fun ⟨_, _⟩ _ => (nTake_calm _ _).bind fun ⟨_, _⟩ _ => (boolean_calm _).bind fun ⟨_, _⟩ _ =>
      (nCond_calm _ _ (nTake_calm _)).bind fun ⟨_, _⟩ _ => (boolean_calm _).bind fun ⟨_, _⟩ _ =>
      (nTake_calm _ _).bind fun ⟨_, _⟩ _ => Never.pure _

theorem anonymous_calm (t : UInt8) (i : Bytes) : Never .panic (anonymousFromBytes t i) := by
  unfold anonymousFromBytes
  split
  · exact (SeedNonceRevelation.calm _).bind fun ⟨_, _⟩ _ => Never.pure _
  split
  · exact (DoubleEndorsementEvidence.calm _).bind fun ⟨_, _⟩ _ => Never.pure _
  split
  · exact ((FullBlockHeader.calm _).bind fun ⟨_, _⟩ _ => (FullBlockHeader.calm _).bind fun ⟨_, _⟩ _ =>
      Never.pure _).bind fun ⟨_, _⟩ _ => Never.pure _
  · exact Never.error (by decide)

/-- No operation makes the parser abort. -/
theorem Op.calm (i : Bytes) : Never .panic (Op.fromBytes i) := by
  refine (nU8_calm _).bind fun ⟨_, _⟩ _ => ?_
  dsimp only
  repeat' split
  all_goals first
    | exact nMap_calm _ (nBeU32_calm _)
    | exact nMap_calm _ (anonymous_calm _ _)
    | exact nMap_calm _ (ActivateAccount.calm _)
    | exact nMap_calm _ (Proposals.calm _)
    | exact nMap_calm _ (Ballot.calm _)
    | exact nMap_calm _ (EndorsementWithSlot.calm _)
    | exact nMap_calm _ (nLenBytes_calm _)
    | exact nMap_calm _ (Reveal.calm _)
    | exact nMap_calm _ (Transfer.calm _)
    | exact nMap_calm _ (Origination.calm _)
    | exact nMap_calm _ (Delegation.calm _)
    | exact Never.pure _

theorem parseNext_calm (i : Bytes) : Never .panic (parseNext i) := by
  unfold parseNext
  split
  · exact Never.ok _
  · exact (Op.calm _).bind fun _ _ => Never.pure _

theorem operationNew_calm (i : Bytes) : Never .panic (operationNew i) :=
  (nTake_calm _ _).bind fun ⟨_, _⟩ _ => Never.pure _

theorem preamble_calm (i : Bytes) : Never .panic (Preamble.parse i) := by
  refine (nU8_calm _).bind fun ⟨_, _⟩ _ => ?_
  dsimp only
  repeat' split
  all_goals first
    | exact Never.ok _
    | exact Never.error (by decide)

/-! ### Texts -/

theorem orUnknown_calm {α : Type} (x : Option α) : Never .panic (orUnknown x) := by
  cases x
  · exact Never.error (by decide)
  · exact Never.ok _

theorem base58_fits_short_address {l : Bytes} (h : l.length ≤ 27) : base58Into 37 l = .ok (base58 l) := by
  unfold base58Into
  rw [if_pos]
  exact base58_length_le rfl
    ((by decide +kernel : ∀ n ≤ 27, ∀ z ≤ n, z ≤ 37 ∧ 256 ^ (n - z) ≤ 58 ^ (37 - z)) l.length h)

theorem base58_fits_short_key {l : Bytes} (h : l.length ≤ 41) : base58Into 56 l = .ok (base58 l) := by
  unfold base58Into
  rw [if_pos]
  exact base58_length_le rfl
    ((by decide +kernel : ∀ n ≤ 41, ∀ z ≤ n, z ≤ 56 ∧ 256 ^ (n - z) ≤ 58 ^ (56 - z)) l.length h)

theorem pkhText_calm {cr : Crypto} (hs : cr.Sized) {p : Pkh} (hp : p.hash.length ≤ 20) :
    Never .panic (pkhText cr p) := by
  refine (orUnknown_calm _).bind fun a ha => ?_
  simp only [orUnknown_ok, Addr.fromHash, Option.bind_eq_bind, Option.bind_eq_some_iff, Option.pure_def,
    Option.some.injEq] at ha
  obtain ⟨b, hb, rfl⟩ := ha
  have hl := checked_length hs hb
  rw [hashPrefix_length] at hl
  exact Never.of_ok (base58_fits_short_address (by simp only; omega))

theorem contractText_calm {cr : Crypto} (hs : cr.Sized) {c : ContractID} (hc : c.WF) :
    Never .panic (c.text cr) := by
  cases c with
  | implicit p =>
    refine (orUnknown_calm _).bind fun b hb => ?_
    have hl := checked_length hs (orUnknown_ok.mp hb)
    rw [hashPrefix_length, hc.1] at hl
    exact Never.of_ok (base58_fits_address hl)
  | originated h =>
    refine (orUnknown_calm _).bind fun b hb => ?_
    have hl := checked_length hs (orUnknown_ok.mp hb)
    have hc : h.length = 20 := hc
    rw [hc] at hl
    exact Never.of_ok (base58_fits_address hl)

theorem michelsonText_calm (cr : Crypto) (m : Bytes) : Never .panic (michelsonText cr m) :=
  (orUnknown_calm _).bind fun _ _ => Never.pure _

theorem keyText_calm {cr : Crypto} (hs : cr.Sized) {c : Curve} {k : Bytes} (hk : k.length ≤ keyLen c) :
    Never .panic (keyText cr c k) := by
  refine (orUnknown_calm _).bind fun b hb => ?_
  have hl := checked_length hs (orUnknown_ok.mp hb)
  have h1 : c.keyPrefix.length = 4 := by cases c <;> rfl
  have h2 : keyLen c ≤ 33 := by cases c <;> decide
  exact Never.of_ok (base58_fits_short_key (by omega))

theorem base58_fits_short_hash {l : Bytes} (h : l.length ≤ 38) : base58Into 52 l = .ok (base58 l) := by
  unfold base58Into
  rw [if_pos]
  exact base58_length_le rfl
    ((by decide +kernel : ∀ n ≤ 38, ∀ z ≤ n, z ≤ 52 ∧ 256 ^ (n - z) ≤ 58 ^ (52 - z)) l.length h)

theorem branchText_calm {cr : Crypto} (hs : cr.Sized) {b : Bytes} (hb : b.length ≤ 32) :
    Never .panic (branchText cr b) := by
  refine (orUnknown_calm _).bind fun x hx => ?_
  have hl := checked_length hs (orUnknown_ok.mp hx)
  have : prefixB.length = 2 := rfl
  exact Never.of_ok (base58_fits_short_hash (by omega))

theorem proposalText_calm {cr : Crypto} (hs : cr.Sized) {b : Bytes} (hb : b.length = 32) :
    Never .panic (proposalText cr b) := by
  refine (orUnknown_calm _).bind fun x hx => ?_
  have hl := checked_length hs (orUnknown_ok.mp hx)
  have : prefixP.length = 2 := rfl
  exact Never.of_ok (base58_fits_short_hash (by omega))

theorem unknownText_calm {cr : Crypto} (hs : cr.Sized) (b : Bytes) : Never .panic (unknownText cr b) := by
  refine (orUnknown_calm _).bind fun d hd => (orUnknown_calm _).bind fun x hx => ?_
  have hl := hs.blake2b (orUnknown_ok.mp hd)
  have hx := orUnknown_ok.mp hx
  unfold sha256x2 at hx
  simp only [Option.bind_eq_bind, Option.bind_eq_some_iff, Option.pure_def, Option.some.injEq] at hx
  obtain ⟨d1, h1, d2, h2, rfl⟩ := hx
  have hl2 := hs.sha256 h2
  exact Never.of_ok (base58_fits_unknown (by simp; omega))

theorem chainIdText_calm {cr : Crypto} (hs : cr.Sized) (id : UInt32) : Never .panic (chainIdText cr id) := by
  refine (orUnknown_calm _).bind fun x hx => ?_
  have hl := checked_length hs (orUnknown_ok.mp hx)
  have h1 : prefixNET.length = 3 := rfl
  have h2 : (be32 id).length = 4 := by simp
  exact Never.of_ok (base58_fits_chain (by omega))

theorem ChainID.alias_calm {cr : Crypto} (hs : cr.Sized) (c : ChainID) : Never .panic (c.alias cr) := by
  cases c
  · exact Never.ok _
  · exact Never.ok _
  · exact chainIdText_calm hs _

theorem numValue_calm (z : Zarith) : Never .panic (numValue z) := by
  unfold numValue
  split
  · exact Never.ok _
  · exact Never.error (by decide)

theorem numText_calm (z : Zarith) : Never .panic (numText z) := (numValue_calm z).bind fun _ _ => Never.pure _

theorem amountText_calm {n : Nat} (hn : n < 2 ^ 32) : Never .panic (amountText n) := by
  have hl := decimal_short hn
  have hp : 0 < (decimal n).length := List.length_pos_of_ne_nil (decimal_ne_nil n)
  have hh : decimal n = [48] ∨ ∃ c cs, decimal n = c :: cs ∧ c ≠ 48 := by
    by_cases h : n = 0
    · subst h; exact .inl (by simp [decimal])
    · exact .inr (decimal_head n h)
  have e := intstrToFpstr_eq (t := decimal n) (d := 6) (k := 12 - (decimal n).length) (by omega)
    (decimal_isDigit n) (decimal_ne_nil n) hh (by omega) (by omega)
  unfold amountText
  rw [e]
  exact Never.ok _

theorem fpText_calm {z : Zarith} (hz : z.isNegative = none) : Never .panic (fpText z) :=
  (numValue_calm z).bind fun _ hv => amountText_calm (numValue_ok hz hv).2

theorem field_calm {t : Bytes} {x : Except VErr Bytes} (h : Never .panic x) :
    Never .panic (do return (⟨t, ← x⟩ : Field)) := h.bind fun _ _ => Never.pure _

/-! ### Items -/

theorem endorsementItem_calm (l : UInt32) (n : Nat) : Never .panic (endorsementItem l n) := by
  unfold endorsementItem
  split
  · exact Never.ok _
  · exact Never.ok _
  · exact Never.error (by decide)

theorem Op.item_calm {cr : Crypto} (hs : cr.Sized) {op : Op} (hw : op.Loose) (n : Nat) :
    Never .panic (op.item cr n) := by
  cases op with
  | transfer t =>
    obtain ⟨⟨h1, h2, h3, h4, h5⟩, h6, h7, h8⟩ : t.WF := hw
    simp only [Op.item, Transfer.item]
    split
    · exact Never.ok _
    · exact field_calm (pkhText_calm hs h1.1.le)
    · exact field_calm (contractText_calm hs h7)
    · exact field_calm (fpText_calm h6.2)
    · exact field_calm (fpText_calm h2.2)
    · split
      · exact field_calm (michelsonText_calm _ _)
      · exact Never.ok _
    · exact field_calm (numText_calm _)
    · exact field_calm (numText_calm _)
    · exact field_calm (numText_calm _)
    · exact Never.error (by decide)
  | delegation t =>
    obtain ⟨⟨h1, h2, h3, h4, h5⟩, h6⟩ := hw
    simp only [Op.item, Delegation.item]
    split
    · exact Never.ok _
    · exact field_calm (pkhText_calm hs h1)
    · split
      · rename_i p hd
        split
        · exact Never.ok _
        · exact field_calm (pkhText_calm hs (h6 p hd))
      · exact Never.ok _
    · exact field_calm (fpText_calm h2)
    · exact field_calm (numText_calm _)
    · exact field_calm (numText_calm _)
    · exact field_calm (numText_calm _)
    · exact Never.error (by decide)
  | endorsement l => exact endorsementItem_calm l n
  | endorsementWithSlot e =>
    have hb : e.branch.length = 32 := (show innerWF e.branch e.signature from hw).1
    simp only [Op.item, EndorsementWithSlot.item]
    split
    · exact Never.ok _
    · exact field_calm (branchText_calm hs (by omega))
    · exact Never.ok _
    · exact endorsementItem_calm _ _
  | ballot b =>
    obtain ⟨h1, h2⟩ : b.WF := hw
    simp only [Op.item, Ballot.item]
    split
    · exact Never.ok _
    · exact field_calm (pkhText_calm hs h1.1.le)
    · exact Never.ok _
    · exact field_calm (proposalText_calm hs h2)
    · exact Never.ok _
    · exact Never.error (by decide)
  | reveal r =>
    obtain ⟨⟨h1, h2, h3, h4, h5⟩, h6⟩ := hw
    simp only [Op.item, Reveal.item]
    split
    · exact Never.ok _
    · exact field_calm (pkhText_calm hs h1)
    · exact field_calm (keyText_calm hs h6)
    · exact field_calm (fpText_calm h2)
    · exact field_calm (numText_calm _)
    · exact field_calm (numText_calm _)
    · exact field_calm (numText_calm _)
    · exact Never.error (by decide)
  | proposals p =>
    obtain ⟨h1, h2, h3⟩ : p.WF := hw
    simp only [Op.item, Proposals.item]
    split
    · exact Never.ok _
    · exact field_calm (pkhText_calm hs h1.1.le)
    · exact Never.ok _
    · rename_i k
      split
      · rename_i hk
        have hlt : k < p.proposals.length := Nat.lt_of_lt_of_le hk (Nat.mod_le _ _)
        rw [List.getElem?_eq_getElem hlt]
        exact field_calm (proposalText_calm hs (h2 _ (List.getElem_mem hlt)))
      · exact Never.error (by decide)
  | origination o =>
    obtain ⟨⟨h1, h2, h3, h4, h5⟩, h6, h7, h8⟩ : o.WF := hw
    simp only [Op.item, Origination.item]
    split
    · exact Never.ok _
    · exact field_calm (pkhText_calm hs h1.1.le)
    · exact field_calm (fpText_calm h6.2)
    · split
      · rename_i p hd
        rw [hd] at h7
        exact field_calm (pkhText_calm hs h7.1.le)
      · exact Never.ok _
    · exact field_calm (fpText_calm h2.2)
    · exact field_calm (michelsonText_calm _ _)
    · exact field_calm (michelsonText_calm _ _)
    · exact field_calm (numText_calm _)
    · exact field_calm (numText_calm _)
    · exact field_calm (numText_calm _)
    · exact Never.error (by decide)
  | activateAccount a =>
    obtain ⟨h1, h2, h3⟩ : a.WF := hw
    simp only [Op.item, ActivateAccount.item]
    split
    · exact Never.ok _
    · exact field_calm (pkhText_calm hs (by first | exact h1.le | exact h2.le))
    · exact Never.ok _
    · exact Never.error (by decide)
  | failingNoop d =>
    simp only [Op.item, failingNoopItem]
    split
    · exact Never.ok _
    · exact field_calm (michelsonText_calm _ _)
    · exact Never.error (by decide)
  | unknown d =>
    simp only [Op.item, unknownItem]
    split
    · exact Never.ok _
    · exact field_calm (unknownText_calm hs _)
    · exact Never.error (by decide)
  | anonymous => exact Never.error (by decide)

theorem findOpFuel_calm (f : Nat) (i : Bytes) (n : UInt8) : Never .panic (findOpFuel f i n) := by
  induction f generalizing i n with
  | zero => exact Never.ok _
  | succ f ih =>
    unfold findOpFuel
    split
    · exact Never.error (by decide)
    · exact Never.ok _
    · dsimp only
      split
      · exact Never.ok _
      · exact ih _ _

theorem signOpItem_calm {cr : Crypto} (hs : cr.Sized) {branch : Bytes} (hb : branch.length ≤ 32) (ops : Bytes)
    (n : UInt8) : Never .panic (signOpItem cr branch ops n) := by
  unfold signOpItem
  split
  · exact field_calm (branchText_calm hs hb)
  · refine (findOpFuel_calm _ _ _).bind fun o ho => ?_
    split
    · exact Never.error (by decide)
    · exact Op.item_calm hs (findOpFuel_WF ho).loose _

/-! ### Reviews -/

/-- The address of a pending review. -/
def View.address : View → Option Addr
  | .addr a _ _ => some a
  | .authorize _ a => some a
  | .deauthorize a => some a
  | .query _ a _ => some a
  | .setup _ a _ _ _ => some a
  | _ => none

/-- What a pending review must satisfy for drawing and approving it not to abort. Every review the app opens does. -/
structure View.Firm (v : View) : Prop where
  tidy : v.Tidy
  address : ∀ a, v.address = some a → a.bytes.length = 27

theorem Addr.base58_calm {a : Addr} (h : a.bytes.length = 27) : Never .panic a.base58 :=
  Never.of_ok (base58_fits_address h)

/-- Drawing an item does not abort. -/
structure Viewer.Calm (v : Viewer) : Prop where
  num : Never .panic v.numItems
  item : ∀ n, Never .panic (v.item n)

theorem View.viewer_calm {cr : Crypto} (hs : cr.Sized) {v : View} (hv : v.Firm) (mem : SwapBuf) :
    (v.viewer cr mem).Calm := by
  obtain ⟨ht, ha⟩ := hv
  cases v with
  | sign hh d r m =>
    cases r with
    | none =>
      refine ⟨Never.ok _, fun n => ?_⟩
      simp only [View.viewer, signMichelsonItem]
      split
      · exact Never.ok _
      · exact Never.error (by decide)
    | some r =>
      refine ⟨?_, fun n => signOpItem_calm hs (slice_length_le _ _ _) _ _⟩
      simp only [View.viewer, numItemsOps]
      split
      · exact Never.error (by decide)
      · exact Never.ok _
  | bakingSign hh d r op m =>
    refine ⟨Never.ok _, fun n => ?_⟩
    simp only [View.viewer]
    split
    · exact field_calm (branchText_calm hs (slice_length_le _ _ _))
    · exact Op.item_calm hs (Op.WF.reread ht _) _
  | addr a _ _ =>
    refine ⟨Never.ok _, fun n => ?_⟩
    simp only [View.viewer]
    split
    · exact field_calm (Addr.base58_calm (ha a rfl))
    · exact Never.error (by decide)
  | authorize _ a | deauthorize a | query _ a _ =>
    refine ⟨Never.ok _, fun n => ?_⟩
    simp only [View.viewer]
    split
    · exact Never.ok _
    split
    · exact field_calm (Addr.base58_calm (ha a rfl))
    · exact Never.error (by decide)
  | setup _ a main test chain =>
    refine ⟨Never.ok _, fun n => ?_⟩
    simp only [View.viewer]
    split
    · exact Never.ok _
    split
    · exact field_calm (Addr.base58_calm (ha a rfl))
    split
    · exact field_calm (ChainID.alias_calm hs _)
    split
    · exact Never.ok _
    split
    · exact Never.ok _
    · exact Never.error (by decide)

/-- The update neither aborts nor loops. -/
def Upd.Calm (u : Upd) : Prop := u ≠ .panic ∧ u ≠ .hang

theorem handleUi_calm (t : Bytes) (p : UInt8) : Never .panic (handleUi t messageSize p) := by
  unfold handleUi
  rw [if_neg (by decide)]
  dsimp only
  split
  · split
    · exact Never.error (by decide)
    · exact Never.ok _
  · exact Never.ok _

theorem renderItem_calm {v : Viewer} (hv : v.Calm) (i p : Nat) : Never .panic (renderItem v i p) :=
  (hv.item _).bind fun _ _ => (handleUi_calm _ _).bind fun ⟨_, _⟩ _ => Never.pure _

theorem renderItem_pages {v : Viewer} (hs : v.Short) {i p n : Nat} {a b : Bytes}
    (h : renderItem v i p = .ok (a, b, n)) : n ≠ 0 := by
  unfold renderItem at h
  simp only [ebind_ok, Prod.exists, ePure, Except.ok.injEq, Prod.mk.injEq] at h
  obtain ⟨f, hf, t, m, hm, -, -, rfl⟩ := h
  have hl := hs _ _ hf
  unfold handleUi at hm
  rw [if_neg (by decide)] at hm
  dsimp only at hm
  split at hm
  · split at hm
    · cases hm
    · cases hm
      have : f.text.length / (messageSize - 1) ≤ 3 := by
        rw [show messageSize - 1 = 34 from rfl]
        omega
      revert this
      generalize f.text.length / (messageSize - 1) = k
      intro hk
      have := (by decide : ∀ k ≤ 3, (1 + UInt8.ofNat k).toNat ≠ 0) k hk
      exact this
  · cases hm
    decide

theorem updateLoop_calm {v : Viewer} (hv : v.Calm) (hs : v.Short) (f : Nat) (z : Zui) :
    (updateLoop v (f + 1) z).Calm := by
  unfold updateLoop
  split
  · rename_i h
    exact absurd h (renderItem_calm hv _ _)
  · exact ⟨by simp, by simp⟩
  · exact ⟨by simp, by simp⟩
  · dsimp only
    split
    · rename_i h
      exact absurd h (renderItem_calm hv _ _)
    · exact ⟨by simp, by simp⟩
    · exact ⟨by simp, by simp⟩
    · rename_i h
      rw [if_neg (renderItem_pages hs h)]
      exact ⟨by simp, by simp⟩

theorem reviewUpdate_calm {v : Option Viewer} (hv : ∀ w, v = some w → w.Calm ∧ w.Short) (z : Zui) :
    (reviewUpdate v z).Calm := by
  unfold reviewUpdate
  split
  · exact ⟨by simp, by simp⟩
  · rename_i w
    obtain ⟨h1, h2⟩ := hv w rfl
    split
    · rename_i h
      exact absurd h h1.num
    · exact ⟨by simp, by simp⟩
    · dsimp only
      split
      · exact ⟨by simp, by simp⟩
      split
      · exact ⟨by simp, by simp⟩
      · exact updateLoop_calm h1 h2 299 _

theorem renderItemX_calm {v : Viewer} (hv : v.Calm) (hs : v.Short) (i p : Nat) :
    Never .panic (renderItemX v i p) ∧ ∀ a b n, renderItemX v i p = .ok (a, b, n) → n ≠ 0 := by
  have hh : ∀ t : Bytes, t.length ≤ 128 → ∀ q, handleUi t messageSizeX q = .ok (t, 1) := by
    intro t ht q
    unfold handleUi
    rw [if_neg (by decide), if_neg (by rw [show messageSizeX = 4096 from rfl]; omega)]
  cases hi : v.item (UInt8.ofNat i) with
  | error e =>
    have he : renderItemX v i p = .error e := by unfold renderItemX; rw [hi]; rfl
    refine ⟨?_, fun a b n h => ?_⟩
    · rw [he]
      have := hv.item (UInt8.ofNat i)
      rw [hi] at this
      intro h
      cases h
      exact this rfl
    · rw [he] at h; cases h
  | ok f =>
    have he : renderItemX v i p = .ok (asciify f.title, asciify f.text, 1) := by
      unfold renderItemX
      rw [hi]
      show (do let (t, n) ← handleUi f.text messageSizeX (UInt8.ofNat p); _) = _
      rw [hh _ (hs _ _ hi)]
      rfl
    rw [he]
    exact ⟨Never.ok _, fun a b n h => by cases h; decide⟩

/-- The update on the larger display neither aborts nor loops. -/
def UpdX.Calm (u : UpdX) : Prop := u ≠ .panic ∧ u ≠ .hang

theorem UpdX.ofError_calm (z : ZuiX) {e : VErr} (h : e ≠ .panic) : (UpdX.ofError z e).Calm := by
  cases e with
  | panic => exact absurd rfl h
  | _ => exact ⟨by simp [ofError], by simp [ofError]⟩

theorem updateLoopX_calm {v : Viewer} (hv : v.Calm) (hs : v.Short) (f : Nat) (z : ZuiX) :
    (updateLoopX v (f + 1) z).Calm := by
  have hn : ∀ i p e, renderItemX v i p = .error e → e ≠ .panic := by
    rintro i p e h rfl
    exact (renderItemX_calm hv hs i p).1 h
  unfold updateLoopX
  split
  · rename_i h
    exact UpdX.ofError_calm _ (hn _ _ _ h)
  · dsimp only
    split
    · rename_i h
      exact UpdX.ofError_calm _ (hn _ _ _ h)
    · rename_i h
      rw [if_neg ((renderItemX_calm hv hs _ _).2 _ _ _ h)]
      exact ⟨by simp, by simp⟩

theorem reviewUpdateX_calm {v : Option Viewer} (hv : ∀ w, v = some w → w.Calm ∧ w.Short) (z : ZuiX) :
    (reviewUpdateX v z).Calm := by
  unfold reviewUpdateX
  split
  · exact ⟨by simp, by simp⟩
  · rename_i w
    obtain ⟨h1, h2⟩ := hv w rfl
    split
    · rename_i e h
      refine UpdX.ofError_calm _ ?_
      rintro rfl
      exact h1.num h
    · exact updateLoopX_calm h1 h2 299 _

/-- A button on the larger display neither aborts nor loops. -/
def ResX.Calm (u : ResX) : Prop := u ≠ .panic ∧ u ≠ .hang

theorem UpdX.Calm.thenItem {u : UpdX} (h : u.Calm) {f : ZuiX → ResX} (hf : ∀ z, (f z).Calm) : (u.thenItem f).Calm := by
  cases u with
  | panic => exact absurd rfl h.1
  | hang => exact absurd rfl h.2
  | failed z => exact hf z
  | _ => exact ⟨by simp [UpdX.thenItem], by simp [UpdX.thenItem]⟩

section
variable {v : Option Viewer} (hv : ∀ w, v = some w → w.Calm ∧ w.Short)
include hv

theorem ZuiX.loopStart_calm (z : ZuiX) : (z.loopStart v).Calm := by
  have h : ∀ x : ZuiX, ((reviewUpdateX v x).thenItem .error).Calm := fun x =>
    (reviewUpdateX_calm hv x).thenItem fun _ => ⟨by simp, by simp⟩
  unfold ZuiX.loopStart
  split
  · split
    · exact h _
    · exact ⟨by simp, by simp⟩
  · exact h _

theorem ZuiX.loopEnd_calm (z : ZuiX) : (z.loopEnd v).Calm := by
  unfold ZuiX.loopEnd
  split
  · have h := reviewUpdateX_calm hv z.pagingIncrease
    split
    case h_5 => rename_i e; exact absurd e h.1
    case h_6 => rename_i e; exact absurd e h.2
    all_goals exact ⟨by simp, by simp⟩
  · exact (reviewUpdateX_calm hv _).thenItem fun _ => ⟨by simp, by simp⟩

omit hv in
theorem ResX.Calm.ofResX {u : ResX} (h : u.Calm) (z : Zui) (l : LargeUi) (e : XError) : (z.ofResX l e u).Calm := by
  cases u with
  | panic => exact absurd rfl h.1
  | hang => exact absurd rfl h.2
  | _ => exact ⟨by simp [Zui.ofResX], by simp [Zui.ofResX]⟩

theorem Zui.goLeft_calm (z : Zui) : (z.goLeft v).Calm := by
  unfold Zui.goLeft
  split
  · exact reviewUpdate_calm hv _
  · refine ResX.Calm.ofResX ?_ _ _ _
    unfold ZuiX.left
    split
    · exact ⟨by simp, by simp⟩
    · exact ZuiX.loopStart_calm hv _
    · exact ZuiX.loopEnd_calm hv _
    · exact ⟨by simp, by simp⟩

theorem Zui.goRight_calm (z : Zui) : (z.goRight v).Calm := by
  unfold Zui.goRight
  split
  · exact reviewUpdate_calm hv _
  · refine ResX.Calm.ofResX ?_ _ _ _
    unfold ZuiX.right
    split
    · exact ZuiX.loopStart_calm hv _
    · exact ZuiX.loopEnd_calm hv _
    · exact ⟨by simp, by simp⟩
    · exact ⟨by simp, by simp⟩

end

theorem Zui.openReview_calm {v : Viewer} (hv : v.Calm ∧ v.Short) (z : Zui) : (z.openReview v).Calm := by
  unfold Zui.openReview
  split
  · exact reviewUpdate_calm (fun w hw => by cases hw; exact hv) _
  · exact ⟨by simp, by simp⟩

theorem newAddr_length {cr : Crypto} (hs : cr.Sized) {c : Curve} {key : Bytes} {a : Addr}
    (h : Addr.ofKey cr c key = some a) : a.bytes.length = 27 := by
  unfold Addr.ofKey Addr.fromHash at h
  simp only [Option.bind_eq_bind, Option.bind_eq_some_iff, Option.pure_def, Option.some.injEq] at h
  obtain ⟨hh, e1, b, hb, rfl⟩ := h
  have hl := checked_length hs hb
  rw [hashPrefix_length] at hl
  have : hh.length = 20 := by
    cases c <;> exact hs.blake2b e1
  simp only
  omega

theorem newAddr_length' {cr : Crypto} (hs : cr.Sized) {c : Curve} {p : Path} {a : Addr}
    (h : newAddr cr c p = some a) : a.bytes.length = 27 := by
  unfold newAddr at h
  simp only [Option.bind_eq_bind, Option.bind_eq_some_iff] at h
  obtain ⟨k, -, h⟩ := h
  exact newAddr_length hs h

theorem Opens.firm {env : Env} (hs : env.cr.Sized) {s : Dev} {p1 p2 : UInt8} {payload : Option Bytes} {c : Cmd}
    {v : View} {p : Option (Path × Curve)} {u : Upl} (ho : Opens env s p1 p2 payload c v p u) : v.Firm := by
  refine ⟨ho.tidy hs, ?_⟩
  · intro a ha
    cases ho with
    | operation | michelson | baking => cases ha
    | addr hcmd hc hp hr hk ha' => cases ha; exact newAddr_length hs ha'
    | authorize _ _ _ _ ha' => cases ha; exact newAddr_length' hs ha'
    | deauthorize _ _ ha' => cases ha; exact newAddr_length' hs ha'
    | query _ _ ha' => cases ha; exact newAddr_length' hs ha'
    | setup _ _ _ _ _ ha' => cases ha; exact newAddr_length' hs ha'

end Tezos
