import Verif.Spec.Exceptions
import Verif.Sys
/-
Exceptions of the operating system: `catch_raw`, and the try contexts, `setjmp` and `longjmp` below it.

The stack of the processor is a list of the activations of `catch_raw` that have not returned, the innermost first. A
context is a local variable of its activation, so its address is the number of activations up to it; 0 is the context of
the main loop. Returning to a context whose activation has returned is outside of what C and Rust define; the machine is
then `lost`. That a local variable changed after `setjmp` keeps its value over `longjmp` is taken for granted.
-/
namespace Tezos
open Spec

variable {σ V : Type}

/-- An activation of `catch_raw` (rust/bolos-impl/src/errors.rs 35-87), with the fields `previous` and `ex` of its
context (`try_context_t`, rust/bolos-sys/src/bindings/bindingsS.rs 3390-3394). -/
structure CatchFrame (σ V : Type) where
  syscall : Guarded σ V
  k : Except UInt32 V → Guarded σ V
  previous : Nat
  ex : UInt16

/-- Where the processor is: in the code of the app, or where the innermost activation goes on after `setjmp` has
returned, with the value it returned. -/
inductive Control (σ V : Type) where
  | run (p : Guarded σ V)
  | setjmp (value : UInt32)

structure Machine (σ V : Type) where
  control : Control σ V
  stack : List (CatchFrame σ V)
  /-- `try_context_get()` -/
  current : Nat
  st : σ

/-- How the code called by the main loop ends. -/
inductive Ending (σ V : Type) where
  | returned (v : V) (current : Nat) (s : σ)
  | thrown (value : UInt32) (s : σ)
  | lost

/-- `os_longjmp`: return a second time from the `setjmp` of the current context; as in C, `setjmp` then returns 1 for an
exception 0. -/
def longjmp (e : UInt32) (stack : List (CatchFrame σ V)) (current : Nat) (s : σ) : Machine σ V ⊕ Ending σ V :=
  let value := if e = 0 then 1 else e
  if stack.length < current then .inr .lost
  else if current = 0 then .inr (.thrown value s)
  else .inl ⟨.setjmp value, stack.drop (stack.length - current), current, s⟩

/-- rust/bolos-impl/src/errors.rs 68-86: the end of `catch_raw`, once `result` is set. -/
def finish (f : CatchFrame σ V) (rest : List (CatchFrame σ V)) (result : Except UInt32 V) (current : Nat) (s : σ) :
    Machine σ V ⊕ Ending σ V :=
  let current := if current = rest.length + 1 then f.previous else current
  if f.ex ≠ 0 then longjmp f.ex.toUInt32 (f :: rest) current s
  else .inl ⟨.run (f.k result), rest, current, s⟩

/-- One step. -/
def Machine.step (m : Machine σ V) : Machine σ V ⊕ Ending σ V :=
  match m.control, m.stack with
  | .run (.ret v), [] => .inr (.returned v m.current m.st)
  -- errors.rs 50-52: the call has returned
  | .run (.ret v), f :: rest => finish f rest (.ok v) m.current m.st
  | .run (.sys call k), stack =>
    match call m.st with
    | (.ok v, s) => .inl ⟨.run (k v), stack, m.current, s⟩
    | (.error e, s) => longjmp e stack m.current s
  -- errors.rs 39-43: the result and a context are made, and `setjmp` returns 0
  | .run (.guard p k), stack => .inl ⟨.setjmp 0, ⟨p, k, 0, 0⟩ :: stack, m.current, m.st⟩
  | .setjmp value, f :: rest =>
    let ex := value.toUInt16
    if ex = 0 then
      -- errors.rs 46-50
      .inl ⟨.run f.syscall, { f with previous := m.current, ex := 0 } :: rest, rest.length + 1, m.st⟩
    else
      -- errors.rs 59-66
      finish { f with ex := 0 } rest (.error ex.toUInt32) f.previous m.st
  | .setjmp value, [] => .inr (.thrown value m.st)

/-- The machine after so many steps, or the ending before that. -/
def Machine.steps (m : Machine σ V) : Nat → Machine σ V ⊕ Ending σ V
  | 0 => .inl m
  | n + 1 =>
    match m.step with
    | .inl m' => m'.steps n
    | .inr e => .inr e

/-- rust/app/c/main.c 121-141: the main loop calls the handler in a context of its own. -/
def Machine.start (p : Guarded σ V) (s : σ) : Machine σ V := ⟨.run p, [], 0, s⟩

/-- rust/app/c/main.c 144-167: what the main loop leaves in the buffer as the reply to a command whose handling ended with
an exception, after the start of the app. Its context has an `ex` of 16 bits as well. -/
def exceptionReply (value : UInt32) : Bytes :=
  let e := value.toUInt16
  [(e >>> 8).toUInt8, e.toUInt8, 0x64, 0x00]

/-! ### Guarded calls -/

/-- rust/bolos-impl/src/errors/exceptionsS.rs 136-142: `catch` of a single call of the system, as
rust/bolos-impl/src/crypto.rs 264-279 uses it for the derivation of keys; `k` is the code after it. -/
def catchCall (call : σ → Except UInt32 V × σ) (k : Except SysError V → Guarded σ V) : Guarded σ V :=
  .guard (.sys call .ret) fun
    | .ok v => k (.ok v)
    | .error e => k (.error (SysError.ofCode e))

/-- rust/bolos-impl/src/nvm.rs 39-42. -/
inductive NvmError where
  | overflow (max got : Nat)
  | internal (e : SysError)
  deriving DecidableEq

/-- rust/bolos-impl/src/nvm.rs 60-94: `NVM::write` of `slice` at `from'` in a memory of `n` bytes, and the code `k` after
it. `nvmWrite` is the call of the system with these two arguments. The sum of `from'` and the length is taken not to
exceed 32 bits. -/
def NVM.write (n : Nat) (nvmWrite : Nat → Bytes → σ → Except UInt32 V × σ) (from' : Nat) (slice : Bytes)
    (k : Except NvmError Unit → Guarded σ V) : Guarded σ V :=
  if n < from' + slice.length then k (.error (.overflow n (from' + slice.length)))
  else catchCall (nvmWrite from' slice) fun
    | .ok _ => k (.ok ())
    | .error e => k (.error (.internal e))

end Tezos
