import Verif.Fuzz
import Verif.Calm
import Verif.Props.Batch
/-
C103: the fuzz target for the parser of operations finds nothing, for any input.
-/
namespace Tezos
open Spec

theorem parseLoop_ends (i : Bytes) : ∃ ops left e, e ≠ LoopEnd.crashed ∧ ops.length + left.length ≤ i.length ∧
    (∃ used, i = used ++ left) ∧ (e = .done ↔ parseOps i = .ok ops) ∧ (e = .done ↔ left = []) ∧
    ∀ turns, ops.length < turns → parseLoop turns i = some (ops, left, e) := by
  induction h : i.length using Nat.strong_induction_on generalizing i with
  | _ n ih =>
    subst h
    cases hp : parseNext i with
    | error e =>
      cases e with
      | panic => exact absurd hp (parseNext_calm i)
      | err =>
        have hne : i ≠ [] := by rintro rfl; cases hp
        have hf : Op.fromBytes i = .error .err := by
          cases i with
          | nil => exact absurd rfl hne
          | cons b r =>
            unfold parseNext at hp
            cases hx : Op.fromBytes (b :: r) with
            | error e =>
              simp only [hx] at hp
              cases hp
              rfl
            | ok x => rw [hx] at hp; cases hp
        refine ⟨[], i, .refused, nofun, by simp, ⟨[], rfl⟩, ⟨nofun, fun h => ?_⟩, ⟨nofun, fun h => absurd h hne⟩,
          fun turns ht => ?_⟩
        · rw [parseOps_error hne hf] at h; cases h
        · obtain ⟨t, rfl⟩ : ∃ k, turns = k + 1 := ⟨turns - 1, by simp at ht; omega⟩
          simp only [parseLoop, hp]
    | ok x =>
      cases x with
      | none =>
        obtain rfl := parseNext_none hp
        refine ⟨[], [], .done, nofun, by simp, ⟨[], rfl⟩, by simp [parseOps_nil], by simp, fun turns ht => ?_⟩
        obtain ⟨t, rfl⟩ : ∃ k, turns = k + 1 := ⟨turns - 1, by simp at ht; omega⟩
        rfl
      | some y =>
        obtain ⟨rest, op⟩ := y
        have hf := parseNext_some hp
        have hs := Op.fromBytes_shorter hf
        obtain ⟨p, rfl, -, -⟩ := Op.fromBytes_holds hf
        obtain ⟨ops, left, e, h1, h2, ⟨used, h3⟩, h4, h5, h6⟩ := ih _ hs rest rfl
        refine ⟨op :: ops, left, e, h1, by simp only [List.length_cons]; omega,
          ⟨p ++ used, by rw [h3, List.append_assoc]⟩, ?_, h5, fun turns ht => ?_⟩
        · rw [h4, parseOps_cons hf]
          cases parseOps rest with
          | error e => exact ⟨nofun, nofun⟩
          | ok l => simp [bind, Except.bind, pure, Except.pure]
        · obtain ⟨t, rfl⟩ : ∃ k, turns = k + 1 := ⟨turns - 1, by simp at ht; omega⟩
          simp only [parseLoop, hp]
          rw [h6 t (by simp at ht; omega)]
          rfl

/-- **C103.** For every input, the fuzz target ends and does not crash. It finds at most as many operations as there are
bytes after the branch. It ends without an error exactly if there is a branch and the rest is a sequence of operations, as
the review of a signature reads it; it has then read the whole input, otherwise it stops with some of it unread. -/
theorem C103_fuzz (data : Bytes) : ∃ ops left e, e ≠ LoopEnd.crashed ∧ ops.length ≤ data.length - 32 ∧
    (∃ used, data = used ++ left) ∧
    (e = .done ↔ 32 ≤ data.length ∧ parseOps (data.drop 32) = .ok ops) ∧ (e = .done → left = []) ∧
    ∀ turns, ops.length < turns → fuzzOperations turns data = some (ops, left, e) := by
  cases h : operationNew data with
  | error e =>
    cases e with
    | panic => exact absurd h (operationNew_calm data)
    | err =>
      refine ⟨[], data, .refused, nofun, by simp, ⟨[], rfl⟩, ⟨nofun, fun hx => ?_⟩, nofun, fun turns _ => ?_⟩
      · unfold operationNew nTake at h
        rw [if_pos hx.1] at h
        cases h
      · simp only [fuzzOperations, h]
  | ok x =>
    obtain ⟨branch, rest⟩ := x
    obtain ⟨h0, rfl, rfl⟩ : 32 ≤ data.length ∧ branch = data.take 32 ∧ rest = data.drop 32 := by
      unfold operationNew nTake at h
      split at h
      · cases h; exact ⟨‹_›, rfl, rfl⟩
      · cases h
    obtain ⟨ops, left, e, h1, h2, ⟨used, h3⟩, h4, h5, h6⟩ := parseLoop_ends (data.drop 32)
    refine ⟨ops, left, e, h1, by rw [List.length_drop] at h2; omega,
      ⟨data.take 32 ++ used, by rw [List.append_assoc, ← h3, List.take_append_drop]⟩, by rw [h4]; simp [h0], h5.mp,
      fun turns ht => ?_⟩
    simp only [fuzzOperations, h]
    exact h6 turns ht

/-- A delegation between rubbish: the first input ends well, with one operation; the second is refused after one
operation; the third has no branch. -/
example :
    let one : Bytes := [110] ++ List.replicate 21 0 ++ [1, 2, 3, 4] ++ [0]
    ((fuzzOperations 9 (List.replicate 32 5 ++ one)).map fun x => (x.1.length, x.2)) = some (1, [], .done) ∧
    ((fuzzOperations 9 (List.replicate 32 5 ++ one ++ [110, 9])).map fun x => (x.1.length, x.2)) =
      some (1, [110, 9], .refused) ∧
    fuzzOperations 9 [5] = some ([], [5], .refused) := by
  decide +kernel

end Tezos
