import Verif.Effects
/-
The app as it is compiled for the tests on a computer: the handlers of the device over the mock of the display in
rust/zemu/src/ui_mock.rs, which approves every review at once (rust/zemu/src/lib.rs 55-56 chooses between the two). The
handlers are repeated here with what they call to show a review, `sh`, as a parameter; `Dev.exec_eq` says that they are
those of the device. Of the mock of the system, rust/bolos-mock, keys, signatures and hashes stay a parameter (`Crypto`);
its flash writes never fail (rust/bolos-mock/src/nvm.rs 56-71), which is one of the environments.
-/
namespace Tezos

/-- What a handler calls to show a review: `Show::show`. -/
abbrev Shower := View → Dev → Res

/-- See `Dev.cmdAuthorize`: rust/app/src/handlers/baking/authorization.rs 61-103. -/
def Dev.authorizeWith (sh : Shower) (env : Env) (p1 p2 : UInt8) (payload : Option Bytes) (s : Dev) : Res :=
  if p1 < 1 then s.fail .conditionsNotSatisfied else
  s.withPath bip32MaxLength p2 payload fun k =>
    match newAddr env.cr k.curve k.path with
    | none => s.fail .executionError
    | some a => sh (.authorize k a) s

/-- See `Dev.cmdDeauthorize`: rust/app/src/handlers/baking/authorization.rs 173-217. -/
def Dev.deauthorizeWith (sh : Shower) (env : Env) (p1 : UInt8) (s : Dev) : Res :=
  if p1 < 1 then s.fail .conditionsNotSatisfied else
  s.withKey .conditionsNotSatisfied .conditionsNotSatisfied fun k =>
    match newAddr env.cr k.curve k.path with
    | none => s.fail .executionError
    | some a => sh (.deauthorize a) s

/-- See `Dev.cmdQueryAuth`: rust/app/src/handlers/baking/queryauth.rs 34-109. -/
def Dev.queryAuthWith (sh : Shower) (env : Env) (withCurve : Bool) (p1 : UInt8) (s : Dev) : Res :=
  s.withKey .conditionsNotSatisfied .conditionsNotSatisfied fun k =>
    match newAddr env.cr k.curve k.path with
    | none => s.fail .executionError
    | some a =>
      if p1 ≥ 1 then sh (.query k a withCurve) s else View.accept env (.query k a withCurve) s

/-- See `Dev.cmdSetup`: rust/app/src/handlers/legacy/baking/setup.rs 39-138. -/
def Dev.setupWith (sh : Shower) (env : Env) (p2 : UInt8) (payload : Option Bytes) (s : Dev) : Res :=
  match Curve.ofByte p2 with
  | none => s.fail .invalidP1P2
  | some curve =>
    match payload with
    | none => s.fail .dataInvalid
    | some p =>
      if p.length < 13 then s.fail .wrongLength else
      let n := (p.getD 12 0).toNat
      if p.length < 13 + 4 * n then s.fail .wrongLength else
      match Path.read bip32MaxLength (slice p 12 (1 + 4 * n)) with
      | .error _ => s.fail .dataInvalid
      | .ok path =>
        match newAddr env.cr curve path with
        | none => s.fail .executionError
        | some a =>
          sh (.setup ⟨curve, path⟩ a (u32OfBe (slice p 4 4)) (u32OfBe (slice p 8 4))
            (ChainID.ofU32 (u32OfBe (slice p 0 4)))) s

/-- See `Dev.cmdAddr`: rust/app/src/handlers/public_key.rs 73-142. -/
def Dev.addrWith (sh : Shower) (env : Env) (confirm : Bool) (p2 : UInt8) (payload : Option Bytes) (s : Dev) : Res :=
  s.withPath 6 p2 payload fun k =>
    match env.cr.publicKey k.curve k.path with
    | none => s.fail .executionError
    | some key =>
      match Addr.ofKey env.cr k.curve key with
      | none => s.fail .dataInvalid
      | some a => if confirm then sh (.addr a key true) s else View.accept env (.addr a key true) s

/-- See `Dev.startSign`: rust/app/src/handlers/signing.rs 78-114. -/
def Dev.startSignWith (sh : Shower) (env : Env) (sendHash : Bool) (p2 : UInt8) (first data : Bytes) (ref : MemRef)
    (s : Dev) : Res :=
  s.withPath bip32MaxLength p2 (some first) fun k =>
    let s := { s with path := some (k.path, k.curve) }
    match env.cr.blake2b 32 data with
    | none => s.fail .executionError
    | some digest =>
      match Preamble.parse data with
      | .error .panic => s.fault .panic
      | .error .err => s.fail .dataInvalid
      | .ok (rem, .operation) =>
        match operationNew rem with
        | .error .panic => s.fault .panic
        | .error .err => s.fail .dataInvalid
        | .ok _ => sh (.sign sendHash digest (some ⟨ref.inFlash, ref.off + 1, ref.len - 1⟩) data) s
      | .ok (_, .michelson) => sh (.sign sendHash digest none data) s
      | .ok _ => s.fail .commandNotAllowed

/-- See `Dev.handleDelegation`: rust/app/src/handlers/baking.rs 290-329. -/
def Dev.delegationWith (sh : Shower) (sendHash : Bool) (digest rem msg : Bytes) (ref : MemRef) (s : Dev) : Res :=
  match operationNew rem with
  | .error .panic => s.fault .panic
  | .error .err => s.fail .dataInvalid
  | .ok (_, ops) =>
    match parseNext ops with
    | .error .panic => s.fault .panic
    | .error .err => s.fail .dataInvalid
    | .ok none => s.fail .dataInvalid
    | .ok (some (_, .delegation d)) => sh (.bakingSign sendHash digest ref (.delegation d) msg) s
    | .ok (some (_, .reveal r)) => sh (.bakingSign sendHash digest ref (.reveal r) msg) s
    | .ok (some _) => s.fail .commandNotAllowed

/-- See `Dev.bakerSign`: rust/app/src/handlers/baking.rs 332-368. -/
def Dev.bakerSignWith (sh : Shower) (env : Env) (sendHash : Bool) (p2 : UInt8) (first data : Bytes) (ref : MemRef)
    (s : Dev) : Res :=
  s.withPath bip32MaxLength p2 (some first) fun k =>
    s.withKey .conditionsNotSatisfied .conditionsNotSatisfied fun stored =>
      if stored ≠ k then s.fail .dataInvalid else
      match env.cr.blake2b 32 data with
      | none => s.fail .executionError
      | some digest =>
        match Preamble.parse data with
        | .error .panic => s.fault .panic
        | .error .err => s.fail .dataInvalid
        | .ok (rem, p) =>
          match p with
          | .tenderbakePreendorsement | .tenderbakeEndorsement | .endorsement =>
            s.autoSign env sendHash digest data (endorsementDecide p rem)
          | .tenderbakeBlock | .block => s.autoSign env sendHash digest data (blockDecide p rem)
          | .operation => s.delegationWith sh sendHash digest rem data ⟨ref.inFlash, ref.off + 1, ref.len - 1⟩
          | _ => s.fail .commandNotAllowed

/-- See `Dev.exec`: rust/app/src/dispatcher.rs 141-195. -/
def Dev.execWith (sh : Shower) (cfg : Config) (env : Env) (c : Cmd) (p1 p2 : UInt8) (payload : Option Bytes) (s : Dev) :
    Res :=
  match c with
  | .authorize => s.authorizeWith sh env p1 p2 payload
  | .deauthorize => s.deauthorizeWith sh env p1
  | .queryAuth wc => s.queryAuthWith sh env wc p1
  | .setup => s.setupWith sh env p2 payload
  | .bakerSign h =>
    s.cmdUpload env .baking p1 p2 payload fun p2 first data ref s => s.bakerSignWith sh env h p2 first data ref
  | .sign h =>
    s.cmdUpload env .sign p1 p2 payload fun p2 first data ref s => s.startSignWith sh env h p2 first data ref
  | .promptAddr => s.addrWith sh env true p2 payload
  | .getAddr => s.addrWith sh env (p1 ≥ 1) p2 payload
  | _ => s.exec cfg env c p1 p2 payload

/-- See `Dev.dispatch`: rust/app/src/dispatcher.rs 111-196. -/
def Dev.dispatchWith (sh : Shower) (cfg : Config) (env : Env) (buf : Bytes) (rx : Nat) (s : Dev) : Res :=
  if buf.length < 5 ∨ rx < 5 ∨ buf.length < rx then s.fail .wrongLength
  else if buf.getD 0 0 ≠ 0x80 then s.fail .claNotSupported
  else
    match command cfg.build (buf.getD 1 0) with
    | none => s.fail .commandNotAllowed
    | some c => s.execWith sh cfg env c (buf.getD 2 0) (buf.getD 3 0) (apduPayload buf)

/-- rust/zemu/src/ui_mock.rs 64-78: `show`: the review is approved, and the answer kept in a buffer of its own. -/
def mockShow (env : Env) : Shower := fun v s => v.accept env s

/-- rust/app/tests/prelude.rs 55-80: `process_apdu`. If a review was shown, the answer is the one kept by the mock
(70-77); a refusal is returned by `accept` with its status word, and the answer is this status word. A panic ends the
test. The 260 bytes of the buffer are the caller's matter; the command is at its beginning. -/
def Dev.hostApdu (cfg : Config) (env : Env) (buf : Bytes) (rx : Nat) (s : Dev) : Dev × Output :=
  if s.running then (s.dispatchWith (mockShow env) cfg env buf rx).deliver else (s, .quiet)

/-- A test on the computer: commands one after the other. -/
def Dev.hostRun (cfg : Config) (s : Dev) : List (Env × Bytes × Nat) → Dev × List Output
  | [] => (s, [])
  | (env, buf, rx) :: es =>
    let r := s.hostApdu cfg env buf rx
    let rest := r.1.hostRun cfg es
    (rest.1, r.2 :: rest.2)

/-- The handlers are those of the device. -/
theorem Dev.exec_eq (cfg : Config) (env : Env) (c : Cmd) (p1 p2 : UInt8) (payload : Option Bytes) (s : Dev) :
    s.execWith (fun v s => s.show env v) cfg env c p1 p2 payload = s.exec cfg env c p1 p2 payload := by
  cases c <;> rfl

theorem Dev.dispatch_eq (cfg : Config) (env : Env) (buf : Bytes) (rx : Nat) (s : Dev) :
    s.dispatchWith (fun v s => s.show env v) cfg env buf rx = s.dispatch cfg env buf rx := by
  unfold Dev.dispatchWith Dev.dispatch
  simp only [Dev.exec_eq]
  rfl

end Tezos
