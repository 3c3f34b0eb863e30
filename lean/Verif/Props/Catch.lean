import Verif.Catch
/-
C83: exceptions of the operating system.
-/
namespace Tezos
open Spec

variable {σ V : Type}

/-- The exceptions of the operating system have 16 bits and are not 0. -/
def IsException (e : UInt32) : Prop := e ≠ 0 ∧ e.toNat < 65536

theorem IsException.low {e : UInt32} (h : IsException e) : e.toUInt16 ≠ 0 ∧ e.toUInt16.toUInt32 = e := by
  obtain ⟨h0, h1⟩ := h
  have h2 : e.toUInt16.toNat = e.toNat := by
    rw [UInt32.toNat_toUInt16]
    exact Nat.mod_eq_of_lt h1
  constructor
  · intro h3
    apply h0
    apply UInt32.toNat_inj.mp
    rw [← h2, h3]
    rfl
  · apply UInt32.toNat_inj.mp
    rw [UInt16.toNat_toUInt32, h2]

/-- The machine gets to `r`. -/
def Machine.Gets (m : Machine σ V) (r : Machine σ V ⊕ Ending σ V) : Prop := ∃ n, m.steps n = r

theorem Machine.Gets.refl (m : Machine σ V) : m.Gets (.inl m) := ⟨0, rfl⟩

theorem Machine.steps_add (m m' : Machine σ V) (a b : Nat) (h : m.steps a = .inl m') : m.steps (a + b) = m'.steps b := by
  induction a generalizing m with
  | zero => cases h; rw [Nat.zero_add]
  | succ a ih =>
    rw [Nat.succ_add]
    cases hs : m.step with
    | inr e => simp [Machine.steps, hs] at h
    | inl m1 =>
      simp only [Machine.steps, hs] at h
      rw [← ih m1 h]
      simp only [Machine.steps, hs]

theorem Machine.Gets.trans {m m' : Machine σ V} {r : Machine σ V ⊕ Ending σ V} (h : m.Gets (.inl m')) (h' : m'.Gets r) :
    m.Gets r := by
  obtain ⟨a, ha⟩ := h
  obtain ⟨b, hb⟩ := h'
  exact ⟨a + b, by rw [m.steps_add m' a b ha, hb]⟩

theorem Machine.Gets.step {m : Machine σ V} {r : Machine σ V ⊕ Ending σ V} (h : m.step = r) : m.Gets r := by
  refine ⟨1, ?_⟩
  unfold Machine.steps
  rw [h]
  cases r <;> rfl

/-- Wherever a program runs, it does what it should: if it ends with a value, the machine gets to the code after it, and
if it ends with an exception, the machine gets to the jump for this exception. In both cases the activations and the
current context are those from before. -/
theorem Machine.gets_outcome (p : Guarded σ V) (hp : p.Throws IsException) (stack : List (CatchFrame σ V)) (s : σ) :
    (∀ v s', p.outcome s = (.ok v, s') →
      Machine.Gets ⟨.run p, stack, stack.length, s⟩ (.inl ⟨.run (.ret v), stack, stack.length, s'⟩)) ∧
    (∀ e s', p.outcome s = (.error e, s') →
      IsException e ∧ Machine.Gets ⟨.run p, stack, stack.length, s⟩ (longjmp e stack stack.length s')) := by
  induction hp generalizing stack s with
  | ret v =>
    constructor
    · intro v' s' h
      cases h
      exact .refl _
    · intro e s' h
      cases h
  | @sys call k hc hk ih =>
    rcases hcs : call s with ⟨r, s1⟩
    cases r with
    | ok v =>
      have h1 : Machine.Gets ⟨.run (.sys call k), stack, stack.length, s⟩
          (.inl ⟨.run (k v), stack, stack.length, s1⟩) := by
        apply Machine.Gets.step
        simp only [Machine.step, hcs]
      have h2 : (Guarded.sys call k).outcome s = (k v).outcome s1 := by
        simp only [Guarded.outcome, hcs]
      rw [h2]
      exact ⟨fun v' s' h => h1.trans ((ih v stack s1).1 v' s' h),
        fun e s' h => ⟨((ih v stack s1).2 e s' h).1, h1.trans ((ih v stack s1).2 e s' h).2⟩⟩
    | error e =>
      have h2 : (Guarded.sys call k).outcome s = (.error e, s1) := by
        simp only [Guarded.outcome, hcs]
      rw [h2]
      constructor
      · intro v s' h
        cases h
      · intro e' s' h
        cases h
        refine ⟨hc s e s1 hcs, .step ?_⟩
        simp only [Machine.step, hcs]
  | @guard p k hp hk ihp ihk =>
    -- into the guarded part
    have h1 : Machine.Gets ⟨.run (.guard p k), stack, stack.length, s⟩
        (.inl ⟨.run p, ⟨p, k, stack.length, 0⟩ :: stack, stack.length + 1, s⟩) :=
      Machine.Gets.trans (m' := ⟨.setjmp 0, ⟨p, k, 0, 0⟩ :: stack, stack.length, s⟩) (.step rfl) (.step rfl)
    have ih := ihp (⟨p, k, stack.length, 0⟩ :: stack) s
    -- out of it, with a result
    have h2 : ∃ r s1, Machine.Gets ⟨.run (.guard p k), stack, stack.length, s⟩
        (.inl ⟨.run (k r), stack, stack.length, s1⟩) ∧ (Guarded.guard p k).outcome s = (k r).outcome s1 := by
      rcases ho : p.outcome s with ⟨r, s1⟩
      cases r with
      | ok v =>
        refine ⟨.ok v, s1, (h1.trans (ih.1 v s1 ho)).trans (.step ?_), ?_⟩
        · simp [Machine.step, finish]
        · simp only [Guarded.outcome, ho]
      | error e =>
        obtain ⟨he, hj⟩ := ih.2 e s1 ho
        obtain ⟨hlow, hsame⟩ := he.low
        refine ⟨.error e, s1, ?_, ?_⟩
        · have h3 : longjmp e (⟨p, k, stack.length, 0⟩ :: stack) (stack.length + 1) s1 =
              .inl ⟨.setjmp e, ⟨p, k, stack.length, 0⟩ :: stack, stack.length + 1, s1⟩ := by
            simp [longjmp, he.1]
          rw [List.length_cons, h3] at hj
          refine (h1.trans hj).trans (.step ?_)
          simp [Machine.step, finish, hlow, hsame]
        · simp only [Guarded.outcome, ho]
    obtain ⟨r, s1, h3, h4⟩ := h2
    rw [h4]
    exact ⟨fun v' s' h => h3.trans ((ihk r stack s1).1 v' s' h),
      fun e s' h => ⟨((ihk r stack s1).2 e s' h).1, h3.trans ((ihk r stack s1).2 e s' h).2⟩⟩

/-- C83: whatever a handler does, and however guards are nested in it, each exception ends everything up to the nearest
guard around it and nothing else; one with no guard around it comes to the main loop, and after a return the context of
the main loop is the current one again. -/
theorem C83_guards (p : Guarded σ V) (hp : p.Throws IsException) (s : σ) :
    ∃ n, (Machine.start p s).steps n = .inr (match p.outcome s with
      | (.ok v, s') => .returned v 0 s'
      | (.error e, s') => .thrown e s') := by
  have h := Machine.gets_outcome p hp [] s
  rcases ho : p.outcome s with ⟨r, s'⟩
  cases r with
  | ok v => exact Machine.Gets.trans (h.1 v s' ho) (.step rfl)
  | error e =>
    obtain ⟨he, hj⟩ := h.2 e s' ho
    have h3 : longjmp (V := V) e [] 0 s' = .inr (.thrown e s') := by
      simp [longjmp, he.1]
    rw [List.length_nil, h3] at hj
    exact hj

/-- C83, replies: the reply to a command whose handling ended with an exception has the status word 0x6400, and tells
which exception it was. -/
theorem C83_reply (e : UInt32) (h : IsException e) :
    exceptionReply e = [UInt8.ofNat (e.toNat / 256), UInt8.ofNat (e.toNat % 256), 0x64, 0x00] := by
  have h2 : e.toUInt16.toNat = e.toNat := by
    rw [UInt32.toNat_toUInt16]
    exact Nat.mod_eq_of_lt h.2
  have h3 : ((e.toUInt16 >>> 8).toUInt8) = UInt8.ofNat (e.toNat / 256) := by
    apply UInt8.toNat_inj.mp
    rw [UInt16.toNat_toUInt8, UInt16.toNat_shiftRight, h2, UInt8.toNat_ofNat']
    simp [Nat.shiftRight_eq_div_pow]
  have h4 : e.toUInt16.toUInt8 = UInt8.ofNat (e.toNat % 256) := by
    apply UInt8.toNat_inj.mp
    rw [UInt16.toNat_toUInt8, h2, UInt8.toNat_ofNat']
    simp
  simp only [exceptionReply, h3, h4]

/-- C83, a guarded call: it is made once, the code after it gets its value or its exception, and sees what the call has
changed; then everything goes on as it would have without a guard. -/
theorem C83_call (call : σ → Except UInt32 V × σ) (hc : ∀ s e s', call s = (.error e, s') → IsException e)
    (k : Except SysError V → Guarded σ V) (hk : ∀ r, (k r).Throws IsException) (s : σ) :
    ∃ r s', ((∃ v, call s = (.ok v, s') ∧ r = .ok v) ∨
        (∃ e, call s = (.error e, s') ∧ r = .error (.syscall e.toUInt16) ∧ e.toUInt16.toNat = e.toNat)) ∧
      ∃ n, (Machine.start (catchCall call k) s).steps n = .inr (match (k r).outcome s' with
        | (.ok v, s'') => .returned v 0 s''
        | (.error e, s'') => .thrown e s'') := by
  have hp : (catchCall call k).Throws IsException := by
    refine .guard (.sys hc fun v => .ret v) fun r => ?_
    cases r <;> exact hk _
  have hg := C83_guards _ hp s
  rcases ho : call s with ⟨r, s'⟩
  cases r with
  | ok v =>
    refine ⟨.ok v, s', .inl ⟨v, rfl, rfl⟩, ?_⟩
    have : (catchCall call k).outcome s = (k (.ok v)).outcome s' := by
      simp only [catchCall, Guarded.outcome, ho]
    rw [this] at hg
    exact hg
  | error e =>
    obtain ⟨_, hsame⟩ := (hc s e s' ho).low
    have h2 : e.toUInt16.toNat = e.toNat := by
      rw [UInt32.toNat_toUInt16]
      exact Nat.mod_eq_of_lt (hc s e s' ho).2
    refine ⟨.error (.syscall e.toUInt16), s', .inr ⟨e, rfl, rfl, h2⟩, ?_⟩
    have : (catchCall call k).outcome s = (k (.error (.syscall e.toUInt16))).outcome s' := by
      simp only [catchCall, Guarded.outcome, ho, SysError.ofCode, hsame, if_true]
    rw [this] at hg
    exact hg

/-- C83, writes to flash: a write that does not fit is refused and nothing is changed; one that fits is made once, and the
code after it learns whether it threw. It runs in either case. -/
theorem C83_write (n : Nat) (nvmWrite : Nat → Bytes → σ → Except UInt32 V × σ)
    (hc : ∀ a b s e s', nvmWrite a b s = (.error e, s') → IsException e) (from' : Nat) (slice : Bytes)
    (k : Except NvmError Unit → Guarded σ V) (hk : ∀ r, (k r).Throws IsException) (s : σ) :
    ∃ r s', (if from' + slice.length ≤ n then
          ((∃ v, nvmWrite from' slice s = (.ok v, s') ∧ r = .ok ()) ∨
           (∃ e, nvmWrite from' slice s = (.error e, s') ∧ r = .error (.internal (.syscall e.toUInt16))))
        else s' = s ∧ r = .error (.overflow n (from' + slice.length))) ∧
      ∃ i, (Machine.start (NVM.write n nvmWrite from' slice k) s).steps i = .inr (match (k r).outcome s' with
        | (.ok v, s'') => .returned v 0 s''
        | (.error e, s'') => .thrown e s'') := by
  by_cases hfit : from' + slice.length ≤ n
  · have hw : NVM.write n nvmWrite from' slice k = catchCall (nvmWrite from' slice) fun
        | .ok _ => k (.ok ())
        | .error e => k (.error (.internal e)) := by
      unfold NVM.write
      rw [if_neg (by omega)]
      congr 1
    obtain ⟨r, s', h1, h2⟩ := C83_call (nvmWrite from' slice) (hc from' slice) (fun
        | .ok _ => k (.ok ())
        | .error e => k (.error (.internal e))) (fun r => by cases r <;> exact hk _) s
    rcases h1 with ⟨v, h1, hr⟩ | ⟨e, h1, hr, _⟩
    · subst hr
      refine ⟨.ok (), s', ?_, ?_⟩
      · rw [if_pos hfit]
        exact .inl ⟨v, h1, rfl⟩
      · rw [hw]
        exact h2
    · subst hr
      refine ⟨.error (.internal (.syscall e.toUInt16)), s', ?_, ?_⟩
      · rw [if_pos hfit]
        exact .inr ⟨e, h1, rfl⟩
      · rw [hw]
        exact h2
  · refine ⟨.error (.overflow n (from' + slice.length)), s, ?_, ?_⟩
    · rw [if_neg hfit]
      exact ⟨rfl, rfl⟩
    · have hw : NVM.write n nvmWrite from' slice k = k (.error (.overflow n (from' + slice.length))) := by
        unfold NVM.write
        rw [if_pos (by omega)]
      rw [hw]
      exact C83_guards _ (hk _) s

/-- The limit of C83: an exception of more than 16 bits whose lower 16 bits are 0, which the operating system does not
have, would not be seen: the call is made a second time, and after it a context is current that does not exist any more,
so that the next exception is lost. -/
theorem C83_wide_exception (call : σ → Except UInt32 V × σ) (k : Except SysError V → Guarded σ V) (s s1 s2 : σ) (e : UInt32)
    (v : V) (he : e ≠ 0) (hlow : e.toUInt16 = 0) (h1 : call s = (.error e, s1)) (h2 : call s1 = (.ok v, s2)) :
    (Machine.start (catchCall call k) s).Gets (.inl ⟨.run (k (.ok v)), [], 1, s2⟩) ∧
    ∀ e', longjmp (V := V) e' [] 1 s2 = .inr .lost := by
  refine ⟨⟨6, ?_⟩, fun e' => rfl⟩
  simp [Machine.start, catchCall, Machine.steps, Machine.step, h1, h2, longjmp, finish, he, hlow]

/-- Two calls, each with a guard, inside of a third guard: the first throws 2 and is followed by one that throws 7 without
a guard of its own. Everything up to the outermost guard is ended by the 7; the code after it goes on. -/
example : ∃ p : Guarded (List Nat) Nat, p.Throws IsException ∧ p.outcome [] = (.ok 107, [7, 2]) ∧
    ∃ n, (Machine.start p []).steps n = .inr (.returned 107 0 [7, 2]) := by
  let throw (e : UInt32) : List Nat → Except UInt32 Nat × List Nat := fun s => (.error e, e.toNat :: s)
  have ht : ∀ e, IsException e → ∀ s e' s', throw e s = (.error e', s') → IsException e' := by
    intro e he s e' s' h
    cases h
    exact he
  let p : Guarded (List Nat) Nat :=
    .guard (.guard (.sys (throw 2) .ret) fun _ => .sys (throw 7) .ret) fun
      | .ok v => .ret v
      | .error e => .ret (e.toNat + 100)
  have hp : p.Throws IsException := by
    refine .guard (.guard (.sys (ht 2 ⟨by decide, by decide⟩) fun v => .ret v) fun _ =>
      .sys (ht 7 ⟨by decide, by decide⟩) fun v => .ret v) fun r => ?_
    cases r <;> exact .ret _
  exact ⟨p, hp, rfl, C83_guards p hp []⟩

end Tezos
