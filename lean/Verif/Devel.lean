import Verif.Device
import Verif.Catch
/-
The development build (feature `dev`): the instructions of rust/app/src/handlers/dev and what they share with the rest of
the app - the upload buffer, the display and the place of the pending review. The other instructions are those of
`Device.lean`.
-/
namespace Tezos
open Spec (Guarded)

/-- The reviews of rust/app/src/handlers/dev. `msg` is a ghost: the message a signature is about. -/
inductive DView where
  /-- rust/app/src/handlers/dev/blind_sign.rs 117-120: `BlindSignUi`; `send_hash` is always true (lines 108-110). -/
  | blind (digest msg : Bytes)
  /-- rust/app/src/handlers/dev/debug.rs 26-27: `Debug`; what it shows is in the upload buffer. -/
  | debug
  /-- rust/app/src/handlers/dev/echo.rs 25-29: `Echo`, the two lines of 17 bytes. -/
  | echo (line1 line2 : Bytes)
  deriving DecidableEq, Repr

/-- The app of the development build: the app, the `PATH` of rust/app/src/handlers/dev/blind_sign.rs 34-35, and the
pending review if it is one of the development build (then `app.view` is `none`). -/
structure DDev where
  app : Dev
  path : Option (Path × Curve)
  review : Option DView
  deriving DecidableEq, Repr

/-! ### Rendering -/

/-- rust/app/src/handlers/dev/blind_sign.rs 139-165: the message of the review of a digest in a buffer of `outLen`
bytes, and the number of pages. -/
def blindPage (digest : Bytes) (outLen : Nat) (page : UInt8) : Except VErr (Bytes × UInt8) :=
  if outLen = 0 then .error .panic
  else
    let m := outLen - 1
    if m ≤ 32 * 2 then
      if m / 2 = 0 then .error .panic  -- `chunks(0)`, or the division below
      else
        match nthChunk digest (m / 2) page.toNat with
        | none => .error .unknown
        | some chunk => .ok (hexEncode chunk, 1 + UInt8.ofNat (32 * 2 / m))
    else .ok (hexEncode digest, 1)

/-- rust/app/src/handlers/dev/echo.rs 72-94: the message of the review, and the number of pages. -/
def echoPage (line1 line2 : Bytes) (outLen : Nat) : Except VErr (Bytes × UInt8) :=
  if outLen < 17 + 17 + 1 then .error .unknown else .ok (line1 ++ line2, 1)

/-- rust/app/src/handlers/dev/blind_sign.rs 122-170, rust/app/src/handlers/dev/debug.rs 76-100,
rust/app/src/handlers/dev/echo.rs 65-94. Pages are made as by `handle_ui_message`, which for a digest is what the code
does (`blindPage_eq`). It is not for an echo of 34 bytes none of which is zero: the code shows it on one page, and here it
is followed by an error; no property is about these screens. -/
def DView.viewer (u : Upl) : DView → Viewer
  | .blind digest _ => ⟨.ok 1, fun n => if n = 0 then .ok ⟨ascii "Blind Sign", hexEncode digest⟩ else .error .noData⟩
  | .debug =>
    ⟨.ok 1, fun n =>
      if n = 0 then
        match lockAcquire u.lock .debug with
        | .ok _ => .ok ⟨ascii "APDU", u.buf.readExact⟩
        | .error _ => .error .unknown
      else .error .noData⟩
  | .echo line1 line2 =>
    ⟨.ok 1, fun n => if n = 0 then .ok ⟨ascii "Echo", (line1 ++ line2).takeWhile (· != 0)⟩ else .error .noData⟩

/-! ### Approving and rejecting -/

/-- How an instruction of this build ends: as others do, or with an exception that nothing catches before the main
loop. -/
inductive DOut where
  | handler (o : HRes)
  | thrown (value : UInt32)
  deriving DecidableEq, Repr

/-- State, result and signature. -/
structure DRes where
  st : DDev
  out : DOut
  sig : Option SigRec := none
  deriving DecidableEq, Repr

def DDev.fail (s : DDev) (e : ApduError) : DRes := ⟨s, .handler (.err e), none⟩

def DDev.ok (s : DDev) (data : Bytes) : DRes := ⟨s, .handler (.ok data), none⟩

def DDev.fault (s : DDev) (f : Fault) : DRes := ⟨s, .handler (.fault f), none⟩

/-- rust/app/src/handlers/dev/debug.rs 57-67: `cleanup`. -/
def DDev.debugCleanup (s : DDev) : DDev := { s with app := { s.app with upl := s.app.upl.drop .debug } }

/-- `Viewable::accept`: rust/app/src/handlers/dev/blind_sign.rs 172-202, rust/app/src/handlers/dev/debug.rs 102-105,
rust/app/src/handlers/dev/echo.rs 96-98. -/
def DView.accept (env : Env) (v : DView) (s : DDev) : DRes :=
  match v with
  | .blind digest msg =>
    match s.path with
    | none => s.fail .conditionsNotSatisfied
    | some (path, curve) =>
      match env.cr.sign curve path digest with
      | none => s.fail .executionError
      | some sig =>
        ⟨{ s with path := none }, .handler (.ok (sigReply true digest sig)), some ⟨curve, path, digest, msg, sig⟩⟩
  | .debug => s.debugCleanup.ok []
  | .echo .. => s.ok []

/-- `Viewable::reject`: rust/app/src/handlers/dev/blind_sign.rs 204-207, rust/app/src/handlers/dev/debug.rs 107-110,
rust/app/src/handlers/dev/echo.rs 100-102. The reply is always `CommandNotAllowed`. -/
def DView.reject (v : DView) (s : DDev) : DDev :=
  match v with
  | .blind .. => { s with path := none }
  | .debug => s.debugCleanup
  | .echo .. => s

/-- The display, and the app running or not. -/
def DDev.withZui (s : DDev) (z : Zui) : DDev := { s with app := { s.app with zui := z } }

def DDev.stopped (s : DDev) : DDev := { s with app := { s.app with running := false } }

/-- rust/zemu/src/ui_toolkit.rs 386-393 (`show`), as for the other reviews: it takes the place of the pending one. -/
def DDev.show (v : DView) (s : DDev) : DRes :=
  let s := { s with app := { s.app with view := none }, review := some v }
  match s.app.zui.openReview (v.viewer s.app.upl) with
  | .shown z => ⟨s.withZui z, .handler (.shown none), none⟩
  | .failed z => ⟨s.withZui { z with screen := .error }, .handler (.shown none), none⟩
  | .rejected z =>
    ⟨{ (v.reject s).withZui { z with screen := .error } with review := none },
      .handler (.shown (some (statusWord .commandNotAllowed))), none⟩
  | .panic => s.fault .panic
  | .hang => s.fault .hang

/-! ### Instructions -/

/-- An upload of this build (`Uploader::upload`, and the drop of a complete upload), as `Dev.cmdUpload`. -/
def DDev.cmdUpload (env : Env) (acc : Accessor) (p1 p2 : UInt8) (payload : Option Bytes)
    (finish : UInt8 → Bytes → Bytes → DDev → DRes) (s : DDev) : DRes :=
  let r := s.app.upl.upload env.copyF env.appendF acc p1 p2 payload
  let s := { s with app := { s.app with upl := r.1 } }
  match r.2 with
  | .more => s.ok []
  | .err e => s.fail e
  | .panic => s.fault .panic
  | .powerLoss => s.fault .powerLoss
  | .complete p2 first data _ =>
    let f := finish p2 first data s
    { f with st := { f.st with app := { f.st.app with upl := f.st.app.upl.drop acc } } }

/-- rust/app/src/handlers/dev/sha256.rs 28-64: `Sha256`; `bufLen` is the size of the exchange buffer. -/
def DDev.cmdHash (env : Env) (bufLen : Nat) (p1 p2 : UInt8) (payload : Option Bytes) (s : DDev) : DRes :=
  s.cmdUpload env .sha256 p1 p2 payload fun _ first data s =>
    match env.cr.sha256 (first ++ data) with
    | none => s.fail .executionError
    | some d => if bufLen < d.length then s.fail .outputBufferTooSmall else s.ok d

/-- rust/app/src/handlers/dev/exception.rs 42-50: the closure, which throws (rust/bolos-impl/src/errors.rs 90-97).
`SysError::try_from` of a `u16` is the `From` of rust/bolos-impl/src/errors/exceptionsS.rs 106-110, which never fails. -/
def exceptThrow (exception : UInt8) : Guarded Unit Bytes :=
  .sys (fun s => (.error (SysError.syscall exception.toUInt16).toCode, s)) .ret

/-- rust/app/src/handlers/dev/exception.rs 38-78: the answer of `Except`, 8 bytes. -/
def exceptProgram (p1 p2 : UInt8) : Guarded Unit Bytes :=
  if p1 ≥ 1 then
    .guard (exceptThrow p2) fun
      | .ok _ => .ret (beEnc 8 0x100000000)
      | .error e => .ret (beEnc 8 (SysError.ofCode e).toCode.toNat)
  else exceptThrow p2

/-- `Except`, by what `catch_raw` makes of it (see `exceptProgram_runs`). -/
def DDev.cmdExcept (p1 p2 : UInt8) (s : DDev) : DRes :=
  let value : UInt32 := if p2 = 0 then 1 else p2.toUInt32
  if p1 ≥ 1 then s.ok (beEnc 8 value.toNat) else ⟨s, .thrown value, none⟩

/-- rust/app/src/handlers/dev/echo.rs 31-63: `Echo`. Fewer than 17 bytes abort: the subtraction wraps and the second
line is taken from behind the end of the payload (with overflow checks, the subtraction aborts). -/
def DDev.cmdEcho (payload : Option Bytes) (s : DDev) : DRes :=
  match payload with
  | none => s.fail .dataInvalid
  | some p =>
    if p.length > 17 + 17 then s.fail .wrongLength
    else if p.length < 17 then s.fault .panic
    else s.show (.echo (p.take 17) (p.drop 17 ++ List.replicate (34 - p.length) 0))

/-- rust/app/src/handlers/dev/blind_sign.rs 70-98: `blind_sign`. -/
def DDev.blindSign (env : Env) (p2 : UInt8) (first data : Bytes) (s : DDev) : DRes :=
  match Curve.ofByte p2 with
  | none => s.fail .invalidP1P2
  | some curve =>
    match Path.read bip32MaxLength first with
    | .error _ => s.fail .dataInvalid
    | .ok path =>
      let s := { s with path := some (path, curve) }
      match env.cr.blake2b 32 data with
      | none => s.fail .executionError
      | some digest => s.show (.blind digest data)

/-- rust/app/src/handlers/dev/debug.rs 29-54: `Debug`. The buffer is locked and not reset. -/
def DDev.cmdDebug (env : Env) (header : Bytes) (payload : Option Bytes) (s : DDev) : DRes :=
  match payload with
  | none => s.fail .dataInvalid
  | some p =>
    let u := { s.app.upl with lock := lockLock s.app.upl.lock .debug }
    let w := u.buf.write env.copyF env.appendF (header ++ [UInt8.ofNat p.length])
    let s := { s with app := { s.app with upl := { u with buf := w.1 } } }
    match w.2 with
    | .err => s.fail .executionError
    | .powerLoss => s.fault .powerLoss
    | .panic => s.fault .panic
    | .ok =>
      let w := s.app.upl.buf.write env.copyF env.appendF p
      let s := { s with app := { s.app with upl := { s.app.upl with buf := w.1 } } }
      match w.2 with
      | .err => s.fail .executionError
      | .powerLoss => s.fault .powerLoss
      | .panic => s.fault .panic
      | .ok => s.show .debug

/-- An instruction of the other builds. A review opened by it takes the place of the pending one. -/
def DDev.ofApp (s : DDev) (r : Res) : DRes :=
  ⟨{ s with app := r.st, review := match r.out with | .shown _ => none | _ => s.review }, .handler r.out, r.sig⟩

/-- The instructions of this build: rust/app/src/dispatcher.rs 90-93 and 128-140. -/
inductive DCmd where
  | hash | except | echo | blindSign | debug
  deriving DecidableEq, Repr

/-- rust/app/src/dispatcher.rs 90-93 (codes), 128-140 and 190-191 (dispatch): instructions of this build; what no
build knows goes to `Debug`. -/
def develCommand (b : Build) (ins : UInt8) : Option DCmd :=
  if ins = 0xF0 then some .hash
  else if ins = 0xF1 then some .except
  else if ins = 0xF2 then some .echo
  else if ins = 0xF3 then some .blindSign
  else if (command b ins).isNone then some .debug
  else none

/-- Running one of them. -/
def DDev.exec (env : Env) (c : DCmd) (buf : Bytes) (s : DDev) : DRes :=
  match c with
  | .hash => s.cmdHash env buf.length (buf.getD 2 0) (buf.getD 3 0) (apduPayload buf)
  | .except => s.cmdExcept (buf.getD 2 0) (buf.getD 3 0)
  | .echo => s.cmdEcho (apduPayload buf)
  | .blindSign =>
    s.cmdUpload env .blindSign (buf.getD 2 0) (buf.getD 3 0) (apduPayload buf) fun p2 first data s =>
      s.blindSign env p2 first data
  | .debug => s.cmdDebug env (buf.take 4) (apduPayload buf)

/-- rust/app/src/utils/apdu_wrapper.rs 57-69 (`new`) and rust/app/src/dispatcher.rs 111-196 (`apdu_dispatch`). -/
def DDev.dispatch (cfg : Config) (env : Env) (buf : Bytes) (rx : Nat) (s : DDev) : DRes :=
  if buf.length < 5 ∨ rx < 5 ∨ buf.length < rx then s.fail .wrongLength
  else if buf.getD 0 0 ≠ 0x80 then s.fail .claNotSupported
  else
    match develCommand cfg.build (buf.getD 1 0) with
    | some c => s.exec env c buf
    | none => s.ofApp (s.app.dispatch cfg env buf rx)

/-! ### Steps -/

/-- As `Res.deliver`; an exception is answered by the main loop (rust/app/c/main.c 144-167). -/
def DRes.deliver (r : DRes) : DDev × Output :=
  match r.out with
  | .handler (.ok data) => (r.st, ⟨some (data ++ statusWord .success), r.sig, none⟩)
  | .handler (.err e) => (r.st, ⟨some (statusWord e), none, none⟩)
  | .handler (.shown early) => (r.st, ⟨early, none, none⟩)
  | .handler (.fault f) => (r.st.stopped, ⟨none, none, some f⟩)
  | .thrown value => (r.st, ⟨some (exceptionReply value), none, none⟩)

/-- rust/zemu/src/ui_toolkit.rs 55-70: `approve` of the review `v`. -/
def DDev.approve (env : Env) (v : DView) (s : DDev) : DDev × Output :=
  let r := (v.accept env (s.withZui { s.app.zui with screen := .idle })).deliver
  ({ r.1 with review := none }, r.2)

/-- rust/zemu/src/ui_toolkit.rs 72-87: `reject`. -/
def DDev.reject (v : DView) (s : DDev) : DDev × Output :=
  ({ v.reject (s.withZui { s.app.zui with screen := .idle }) with review := none },
    ⟨some (statusWord .commandNotAllowed), none, none⟩)

/-- rust/zemu/src/ui_toolkit.rs 89-104: `accept_error`. -/
def DDev.acceptError (s : DDev) : DDev × Output :=
  ({ s.withZui { s.app.zui with screen := .idle } with review := none }, ⟨some (statusWord .dataInvalid), none, none⟩)

/-- As `Dev.onError`. -/
def DDev.onError (closes : Bool) (move : XError → XError) (s : DDev) : DDev × Output :=
  if closes then s.acceptError else (s.withZui (s.app.zui.moveError move), .quiet)

/-- As `Dev.redraw`, the pending review being `v` or none. -/
def DDev.redraw (v : Option DView) (u : Upd) (s : DDev) : DDev × Output :=
  match u with
  | .shown z => (s.withZui z, .quiet)
  | .failed z => (s.withZui { z with screen := .error }, .quiet)
  | .rejected z =>
    match v with
    | none => (s.withZui { z with screen := .error }, .quiet)
    | some v =>
      let r := (s.withZui z).reject v
      (r.1.withZui { r.1.app.zui with screen := .error }, r.2)
  | .panic => (s.stopped, ⟨none, none, some .panic⟩)
  | .hang => (s.stopped, ⟨none, none, some .hang⟩)

/-- rust/zemu/src/ui_toolkit.rs 178-183: what both buttons do. -/
def DDev.choose (env : Env) (v : DView) (s : DDev) : DDev × Output :=
  match s.app.zui.chosen with
  | .approve => s.approve env v
  | .reject => s.reject v
  | .nothing => (s, .quiet)

/-- rust/zemu/src/ui_toolkit.rs 178-190: `review_action`, as `Dev.pressBoth`. -/
def DDev.pressBoth (env : Env) (v : DView) (s : DDev) : DDev × Output :=
  let r := s.choose env v
  if r.1.app.running ∧ r.1.app.zui.jumps then
    let j := r.1.redraw r.1.review (r.1.app.zui.expertJump (r.1.review.map (DView.viewer r.1.app.upl)))
    (j.1, ⟨r.2.reply <|> j.2.reply, r.2.sig, r.2.fault <|> j.2.fault⟩)
  else r

/-- A button while the review `v` is pending. -/
def DDev.button (env : Env) (v : DView) (ev : Event) (s : DDev) : DDev × Output :=
  match s.app.zui.screen, ev with
  | .review .., .left => s.redraw (some v) (s.app.zui.goLeft (some (v.viewer s.app.upl)))
  | .review .., .right => s.redraw (some v) (s.app.zui.goRight (some (v.viewer s.app.upl)))
  | .review .., .both => s.pressBoth env v
  | .error, .left => s.onError false .prev
  | .error, .right => s.onError s.app.zui.closesRight .next
  | .error, .both => s.onError s.app.zui.closesBoth id
  | _, _ => (s, .quiet)

/-- An event of the other builds. -/
def DDev.appStep (cfg : Config) (env : Env) (ev : Event) (s : DDev) : DDev × Output :=
  let r := s.app.step cfg env ev
  ({ s with app := r.1 }, r.2)

/-- One event. -/
def DDev.step (cfg : Config) (env : Env) (ev : Event) (s : DDev) : DDev × Output :=
  match ev with
  | .relaunch => (⟨s.app.relaunch, none, none⟩, .quiet)
  | .apdu buf rx => if s.app.running then (s.dispatch cfg env buf rx).deliver else (s, .quiet)
  | .expert => s.appStep cfg env .expert
  | .left | .right | .both =>
    match s.review with
    | none => s.appStep cfg env ev
    | some v => if s.app.running then s.button env v ev else (s, .quiet)

/-- A device as flashed. -/
def DDev.factory (new : NewDevice) : DDev := ⟨Dev.factory new, none, none⟩

/-- A run: the final state and what was seen at each event. -/
def DDev.run (cfg : Config) (s : DDev) : List (Env × Event) → DDev × List Output
  | [] => (s, [])
  | (env, ev) :: es =>
    let r := s.step cfg env ev
    let rest := r.1.run cfg es
    (rest.1, r.2 :: rest.2)

end Tezos
