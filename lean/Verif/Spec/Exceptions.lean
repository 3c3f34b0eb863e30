import Verif.Bytes
/-
Specification of exceptions: programs that call the operating system and guard parts of themselves, and what they should
do.
-/
namespace Spec

/-- A program, as far as exceptions go. `σ` is everything a call of the system can see or change, `V` the values that
calls return. A call ends with a value or throws. `guard p k` runs `p` and goes on with `k`, whether `p` ends with a value
or with an exception that nothing in it guards. -/
inductive Guarded (σ V : Type) where
  | ret (v : V)
  | sys (call : σ → Except UInt32 V × σ) (k : V → Guarded σ V)
  | guard (p : Guarded σ V) (k : Except UInt32 V → Guarded σ V)

namespace Guarded
variable {σ V : Type}

/-- What a program should do: an exception ends everything up to the nearest guard around it and nothing else. -/
def outcome : Guarded σ V → σ → Except UInt32 V × σ
  | ret v, s => (.ok v, s)
  | sys call k, s =>
    match call s with
    | (.ok v, s') => (k v).outcome s'
    | (.error e, s') => (.error e, s')
  | guard p k, s =>
    match p.outcome s with
    | (.ok v, s') => (k (.ok v)).outcome s'
    | (.error e, s') => (k (.error e)).outcome s'

/-- Every exception that a call of the program can throw satisfies `P`. -/
inductive Throws (P : UInt32 → Prop) : Guarded σ V → Prop
  | ret (v : V) : Throws P (ret v)
  | sys {call : σ → Except UInt32 V × σ} {k : V → Guarded σ V} (hc : ∀ s e s', call s = (.error e, s') → P e)
      (hk : ∀ v, Throws P (k v)) : Throws P (sys call k)
  | guard {p : Guarded σ V} {k : Except UInt32 V → Guarded σ V} (hp : Throws P p) (hk : ∀ r, Throws P (k r)) :
      Throws P (guard p k)

end Guarded
end Spec
