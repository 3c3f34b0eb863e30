import Verif.Upload
import Verif.Watermark
import Verif.Consensus
import Verif.ZuiX
/-
The app as a state machine: dispatcher, handlers and the review buttons, over the flash records.

One `step` handles one event: a command received from the host, a button press, switching expert mode, or
(re)starting the app. What the environment decides during an event is in `Env`: the results of the cryptographic
system calls and the fate of each flash write. The exchange buffer is left to the events; that every reply fits in it,
and when the pending review is safe in it, is in `Exchange.lean` and C80.
-/
namespace Tezos

/-! ### Flash records -/

/-- A `lazy_static` record of rust/app/src/handlers/hwm.rs 36-43 or rust/app/src/handlers/baking.rs 44-46: the pages
in flash, and in RAM the position of the wear leveller once a write has used it. The code also keeps the position
found by the first read; finding it again gives the same because only writes change the pages. -/
structure Store where
  pages : List Bytes
  cache : Option Nat
  deriving DecidableEq, Repr

/-- The wear leveller, opened on first use. -/
def Store.wear (s : Store) : Except WearError Wear :=
  match s.cache with
  | some i => .ok ⟨s.pages, i⟩
  | none => Wear.new s.pages

/-- Result of reading a record; failing to open it aborts (`apdu_expect`). -/
inductive ReadRes where
  | ok (b : Bytes)
  | err (e : WearError)
  | panic
  deriving DecidableEq, Repr

/-- `MAIN.read()` and the like. -/
def Store.read (s : Store) : ReadRes :=
  match s.wear with
  | .error _ => .panic
  | .ok w =>
    match w.read with
    | .ok b => .ok b
    | .error .panic => .panic
    | .error e => .err e

/-- What a page program that did not complete leaves in the page. -/
inductive PageLeft where
  | unchanged
  | complete
  | other (page : Bytes)
  deriving DecidableEq, Repr

/-- The fate of a write to a record: it completes, fails with an exception, or is cut by a power loss. -/
inductive Fate where
  | done
  | fails (left : PageLeft)
  | powerLoss (left : PageLeft)
  deriving DecidableEq, Repr

/-- The contents of the target page afterwards. -/
def PageLeft.page (w : Wear) (payload : Bytes) : PageLeft → Bytes
  | .unchanged => w.pages.getD ((w.idx + 1) % 2 ^ 64 % w.pages.length) []
  | .complete => Slot.toPage ((w.idx + 1) % 2 ^ 64) payload
  | .other page => page

/-- In the terms of `Wear.write`. -/
def Fate.forWear (w : Wear) (payload : Bytes) : Fate → WriteFate
  | .done => .done
  | .fails left => .fails (left.page w payload)
  | .powerLoss left => .powerLoss (left.page w payload)

/-- `MAIN.write(data)` and the like. A power loss also loses the position in RAM. -/
def Store.write (fate : Fate) (payload : Bytes) (s : Store) : Store × WriteRes :=
  match s.wear with
  | .error _ => (s, .panic)
  | .ok w =>
    let r := w.write (fate.forWear w payload) payload
    (⟨r.1.pages, if r.2 = .powerLoss then none else some r.1.idx⟩, r.2)

/-- Losing the RAM. -/
def Store.relaunch (s : Store) : Store := { s with cache := none }

/-! ### State, environment, events -/

/-- The two builds (features `baking` and `wallet`). -/
inductive Build where
  | baking | wallet
  deriving DecidableEq, Repr

/-- Constants of a build: the version of Makefile.version, the commit hash and the target id. -/
structure Config where
  build : Build
  major : UInt8
  minor : UInt8
  patch : UInt8
  /-- first 8 characters of the commit hash (rust/app/src/handlers/legacy/version.rs 26-32) -/
  commit : Bytes
  target : UInt32

/-- A review (the types implementing `Viewable`). `msg` is a ghost: the message a signature is about. -/
inductive View where
  /-- rust/app/src/handlers/signing.rs 135-139: `SignUI`; `parsed` refers to the upload memory after the
  preamble byte. -/
  | sign (sendHash : Bool) (digest : Bytes) (parsed : Option MemRef) (msg : Bytes)
  /-- rust/app/src/handlers/baking.rs 371-381: `BakingSignUI`; its `branch` and `data` refer to the upload memory after
  the preamble byte. -/
  | bakingSign (sendHash : Bool) (digest : Bytes) (parsed : MemRef) (op : Op) (msg : Bytes)
  /-- rust/app/src/handlers/public_key.rs 254-262: `AddrUI`. -/
  | addr (addr : Addr) (key : Bytes) (withAddr : Bool)
  /-- rust/app/src/handlers/baking/authorization.rs 53-59: `AuthorizeUI`. -/
  | authorize (key : PathAndCurve) (addr : Addr)
  /-- rust/app/src/handlers/baking/authorization.rs 193-195: `DeAuthorizeUI`. -/
  | deauthorize (addr : Addr)
  /-- rust/app/src/handlers/baking/queryauth.rs 111-117: `QueryAuthUI`. -/
  | query (key : PathAndCurve) (addr : Addr) (withCurve : Bool)
  /-- rust/app/src/handlers/legacy/baking/setup.rs 93-101: `SetupUI`. -/
  | setup (key : PathAndCurve) (addr : Addr) (main test : UInt32) (chain : ChainID)
  deriving DecidableEq, Repr

/-- The app: flash records, upload buffer, `PATH` (rust/app/src/handlers/signing.rs 40-41), screen and pending review.
-/
structure Dev where
  main : Store
  test : Store
  chain : Store
  key : Store
  upl : Upl
  path : Option (Path × Curve)
  zui : Zui
  view : Option View
  running : Bool
  deriving DecidableEq, Repr

/-- What the environment decides during one event. Each record is written at most once per event. -/
structure Env where
  cr : Crypto
  mainF : Fate
  testF : Fate
  chainF : Fate
  keyF : Fate
  /-- copying the upload buffer to flash, and appending to it -/
  copyF : WriteFate
  appendF : WriteFate

/-- Events. `apdu buf rx`: the host sent `rx` bytes, now at the start of the exchange buffer `buf`; the bytes after
them are left over from earlier exchanges. `expert`: the expert mode entry of the idle menu. `relaunch`: the app is
(re)started, losing its RAM. -/
inductive Event where
  | apdu (buf : Bytes) (rx : Nat)
  | left | right | both
  | expert
  | relaunch
  deriving DecidableEq, Repr

/-- Why the app stopped. -/
inductive Fault where
  | panic | powerLoss | hang
  deriving DecidableEq, Repr

/-- A signature handed out: the key, the digest that was signed and the message it belongs to. -/
structure SigRec where
  curve : Curve
  path : Path
  digest : Bytes
  msg : Bytes
  sig : Bytes
  deriving DecidableEq, Repr

/-- How a handler or an approval ends. `shown` is a review opened (with the reply already sent if it rejected
itself while being drawn). -/
inductive HRes where
  | ok (data : Bytes)
  | err (e : ApduError)
  | shown (early : Option Bytes)
  | fault (f : Fault)
  deriving DecidableEq, Repr

/-- State, result and signature produced by a handler or an approval. -/
structure Res where
  st : Dev
  out : HRes
  sig : Option SigRec := none
  deriving DecidableEq, Repr

/-- A result leaving the state alone. -/
def Dev.fail (s : Dev) (e : ApduError) : Res := ⟨s, .err e, none⟩

def Dev.ok (s : Dev) (data : Bytes) : Res := ⟨s, .ok data, none⟩

def Dev.fault (s : Dev) (f : Fault) : Res := ⟨s, .fault f, none⟩

/-- Continue after a write that must succeed; `e` is what the caller maps its error to. -/
def Dev.afterWrite (s : Dev) (r : WriteRes) (e : ApduError) (k : Dev → Res) : Res :=
  match r with
  | .ok => k s
  | .err => s.fail e
  | .powerLoss => s.fault .powerLoss
  | .panic => s.fault .panic

/-- Continue with the contents of a record; `e` is what the caller maps a read error to. -/
def Dev.withRead (s : Dev) (r : ReadRes) (e : ApduError) (k : Bytes → Res) : Res :=
  match r with
  | .ok b => k b
  | .err _ => s.fail e
  | .panic => s.fault .panic

/-! ### Keys -/

/-- rust/app/src/handlers/public_key.rs 55-70: `new_addr_into`. -/
def newAddr (cr : Crypto) (curve : Curve) (path : Path) : Option Addr := do
  let key ← cr.publicKey curve path
  Addr.ofKey cr curve key

/-- rust/app/src/handlers/baking.rs 149-153: `store_baking_key`. -/
def Dev.storeKey (env : Env) (k : PathAndCurve) (s : Dev) : Dev × WriteRes :=
  let r := s.key.write env.keyF k.encode
  ({ s with key := r.1 }, r.2)

/-- rust/app/src/handlers/baking.rs 156-158: `remove_baking_key`. -/
def Dev.removeKey (env : Env) (s : Dev) : Dev × WriteRes :=
  let r := s.key.write env.keyF PathAndCurve.empty
  ({ s with key := r.1 }, r.2)

/-- The key record, decoded: `BAKINGPATH.read()` and `Bip32PathAndCurve::try_from_bytes`. `e` is what a read error
becomes, `none'` what an empty record becomes (rust/app/src/handlers/baking.rs 136-146, 161-168, 171-181,
rust/app/src/handlers/baking/queryauth.rs 41-48). -/
def Dev.withKey (s : Dev) (e none' : ApduError) (k : PathAndCurve → Res) : Res :=
  s.withRead s.key.read e fun b =>
    match PathAndCurve.tryFromBytes b with
    | .error e => s.fail e
    | .ok none => s.fail none'
    | .ok (some key) => k key

/-! ### Watermarks -/

/-- rust/app/src/handlers/hwm.rs 147-151: `HWM::write`. -/
def Dev.writeMain (env : Env) (w : WaterMark) (s : Dev) : Dev × WriteRes :=
  let r := s.main.write env.mainF w.encode
  ({ s with main := r.1 }, r.2)

/-- rust/app/src/handlers/hwm.rs 153-157: `HWM::write_test`. -/
def Dev.writeTest (env : Env) (w : WaterMark) (s : Dev) : Dev × WriteRes :=
  let r := s.test.write env.testF w.encode
  ({ s with test := r.1 }, r.2)

/-- rust/app/src/handlers/hwm.rs 83-88: `set_chain_id`. -/
def Dev.writeChain (env : Env) (id : UInt32) (s : Dev) : Dev × WriteRes :=
  let r := s.chain.write env.chainF (chainIdEncode id)
  ({ s with chain := r.1 }, r.2)

/-- rust/app/src/handlers/hwm.rs 51-69: `HWM::reset`. -/
def Dev.resetHwm (env : Env) (level : UInt32) (s : Dev) : Res :=
  let w := s.writeMain env (WaterMark.reset level false)
  w.1.afterWrite w.2 .executionError fun s =>
    let w := s.writeTest env (WaterMark.reset level false)
    w.1.afterWrite w.2 .executionError fun s =>
      match s.chain.read with
      | .panic => s.fault .panic
      | .err .uninitialized =>
        let w := s.writeChain env mainnetChainId
        w.1.afterWrite w.2 .executionError fun s => s.ok []
      | _ => s.ok []

/-- rust/app/src/handlers/legacy/hwm.rs 32-55: `LegacyResetHWM`. -/
def Dev.cmdReset (env : Env) (payload : Option Bytes) (s : Dev) : Res :=
  match payload with
  | none => s.fail .dataInvalid
  | some p => if p.length < 4 then s.fail .wrongLength else s.resetHwm env (u32OfBe (p.take 4))

/-- rust/app/src/handlers/legacy/hwm.rs 57-83: `LegacyQueryMainHWM`, with `HWM::hwm` and `hwm_default`
(rust/app/src/handlers/hwm.rs 72-81). -/
def Dev.cmdQueryMain (s : Dev) : Res :=
  match s.main.read with
  | .ok b => s.ok (be32 (WaterMark.decode b).level)
  | .err .uninitialized => s.ok (be32 WaterMark.default.level)
  | .err _ => s.fail .executionError
  | .panic => s.fault .panic

/-- rust/app/src/handlers/hwm.rs 124-136: `all_hwm_default`. -/
def allHwmDefault : Bytes :=
  be32 WaterMark.default.level ++ be32 WaterMark.default.level ++ be32 mainnetChainId

/-- rust/app/src/handlers/hwm.rs 107-122: `all_hwm`. -/
def Dev.allHwm (s : Dev) : ReadRes :=
  match s.main.read with
  | .ok m =>
    match s.test.read with
    | .ok t =>
      match s.chain.read with
      | .ok c =>
        .ok (be32 (WaterMark.decode m).level ++ be32 (WaterMark.decode t).level ++ be32 (chainIdDecode c))
      | e => e
    | e => e
  | e => e

/-- rust/app/src/handlers/legacy/hwm.rs 85-111: `LegacyQueryAllHWM`. -/
def Dev.cmdQueryAll (s : Dev) : Res :=
  match s.allHwm with
  | .ok b => s.ok b
  | .err .uninitialized => s.ok allHwmDefault
  | .err _ => s.fail .executionError
  | .panic => s.fault .panic

/-! ### Reviews -/

/-- Item count and items of a review: rust/app/src/handlers/signing.rs 203-316, rust/app/src/handlers/baking.rs
383-424, rust/app/src/handlers/public_key.rs 264-287, rust/app/src/handlers/baking/authorization.rs 105-135 and
219-247, rust/app/src/handlers/baking/queryauth.rs 136-164, rust/app/src/handlers/legacy/baking/setup.rs 140-198. The
memory is the upload memory at the moment of drawing. -/
def View.viewer (cr : Crypto) (mem : SwapBuf) : View → Viewer
  | .sign _ digest none _ => ⟨.ok 1, signMichelsonItem digest⟩
  | .sign _ _ (some r) _ =>
    let branch := (MemRef.mk r.inFlash r.off 32).get mem
    let ops := (MemRef.mk r.inFlash (r.off + 32) (r.len - 32)).get mem
    ⟨numItemsOps ops, signOpItem cr branch ops⟩
  | .bakingSign _ _ r op _ =>
    let branch := (MemRef.mk r.inFlash r.off 32).get mem
    let ops := (MemRef.mk r.inFlash (r.off + 32) (r.len - 32)).get mem
    ⟨.ok (UInt8.ofNat (op.uiItems + 1)), fun n =>
      if n = 0 then do return ⟨ascii "Operation", ← branchText cr branch⟩
      else (op.reread ops).item cr (n - 1).toNat⟩
  | .addr a _ _ =>
    ⟨.ok 1, fun n => if n = 0 then do return ⟨ascii "Address", ← a.base58⟩ else .error .noData⟩
  | .authorize _ a =>
    ⟨.ok 2, fun n =>
      if n = 0 then .ok ⟨ascii "Type", cstr "Authorize Baking"⟩
      else if n = 1 then do return ⟨ascii "Address", ← a.base58⟩ else .error .noData⟩
  | .deauthorize a =>
    ⟨.ok 2, fun n =>
      if n = 0 then .ok ⟨ascii "Type", cstr "DeAuthorize Baking"⟩
      else if n = 1 then do return ⟨ascii "Address", ← a.base58⟩ else .error .noData⟩
  | .query _ a _ =>
    ⟨.ok 2, fun n =>
      if n = 0 then .ok ⟨ascii "Type", cstr "Query Authorized"⟩
      else if n = 1 then do return ⟨ascii "Address", ← a.base58⟩ else .error .noData⟩
  | .setup _ a main test chain =>
    ⟨.ok 5, fun n =>
      if n = 0 then .ok ⟨ascii "Type", cstr "Setup Baking"⟩
      else if n = 1 then do return ⟨ascii "Address", ← a.base58⟩
      else if n = 2 then do return ⟨ascii "Chain", ← chain.alias cr⟩
      else if n = 3 then .ok ⟨ascii "Main Chain HWM", decimal main.toNat⟩
      else if n = 4 then .ok ⟨ascii "Test Chain HWM", decimal test.toNat⟩
      else .error .noData⟩

/-- Public key reply: a length byte and the key (rust/app/src/handlers/baking/authorization.rs 155-163,
rust/app/src/handlers/legacy/baking/setup.rs 227-235, rust/app/src/handlers/legacy/public_key.rs 61-66). -/
def keyReply (key : Bytes) : Bytes := UInt8.ofNat key.length :: key

/-- Signature reply: the digest if asked for, and the signature (rust/app/src/handlers/signing.rs 336-344,
rust/app/src/handlers/baking.rs 230-243). -/
def sigReply (sendHash : Bool) (digest sig : Bytes) : Bytes := (if sendHash then digest else []) ++ sig

/-- rust/app/src/handlers/baking.rs 171-189: `Baking::sign`, and the reply built from it. -/
def Dev.bakingSign (env : Env) (sendHash : Bool) (digest msg : Bytes) (s : Dev) : Res :=
  s.withKey .executionError .conditionsNotSatisfied fun k =>
    match env.cr.sign k.curve k.path digest with
    | none => s.fail .executionError
    | some sig => ⟨s, .ok (sigReply sendHash digest sig), some ⟨k.curve, k.path, digest, msg, sig⟩⟩

/-- `Viewable::accept` of the reviews: rust/app/src/handlers/signing.rs 318-347, rust/app/src/handlers/baking.rs
426-446, rust/app/src/handlers/public_key.rs 289-306, rust/app/src/handlers/baking/authorization.rs 138-164 and
249-258, rust/app/src/handlers/baking/queryauth.rs 166-187, rust/app/src/handlers/legacy/baking/setup.rs 200-236. -/
def View.accept (env : Env) (v : View) (s : Dev) : Res :=
  match v with
  | .sign sendHash digest _ msg =>
    match s.path with
    | none => s.fail .conditionsNotSatisfied
    | some (path, curve) =>
      match env.cr.sign curve path digest with
      | none => s.fail .executionError
      | some sig =>
        ⟨{ s with path := none }, .ok (sigReply sendHash digest sig), some ⟨curve, path, digest, msg, sig⟩⟩
  | .bakingSign sendHash digest _ _ msg => s.bakingSign env sendHash digest msg
  | .addr a key withAddr =>
    if withAddr then
      match a.base58 with
      | .error _ => s.fault .panic
      | .ok t => s.ok (keyReply key ++ t)
    else s.ok (keyReply key)
  | .authorize k _ =>
    match env.cr.publicKey k.curve k.path with
    | none => s.fail .executionError
    | some key =>
      let w := s.storeKey env k
      w.1.afterWrite w.2 .executionError fun s => s.ok (keyReply key)
  | .deauthorize _ =>
    let w := s.removeKey env
    w.1.afterWrite w.2 .executionError fun s => s.ok []
  | .query k _ withCurve =>
    s.ok ((if withCurve then [k.curve.toByte] else []) ++ k.path.serialize)
  | .setup k _ main test chain =>
    match env.cr.publicKey k.curve k.path with
    | none => s.fail .executionError
    | some key =>
      let w := s.storeKey env k
      w.1.afterWrite w.2 .executionError fun s =>
        let w := s.writeMain env (WaterMark.reset main false)
        w.1.afterWrite w.2 .busy fun s =>
          let w := s.writeTest env (WaterMark.reset test false)
          w.1.afterWrite w.2 .busy fun s =>
            let w := s.writeChain env chain.toU32
            w.1.afterWrite w.2 .busy fun s => s.ok (keyReply key)

/-- `Viewable::reject` of the reviews: only `SignUI` (rust/app/src/handlers/signing.rs 349-352) has an effect; the
reply is always `CommandNotAllowed`. -/
def View.reject (v : View) (s : Dev) : Dev :=
  match v with
  | .sign .. => { s with path := none }
  | _ => s

/-- The two bytes of a status word. -/
def statusWord (e : ApduError) : Bytes := beEnc 2 e.code.toNat

/-- rust/zemu/src/ui_toolkit.rs 386-393 (`show`) and rust/zemu/src/ui.rs 82-91: store the review, draw its first
screen. Storing never fails: every review is smaller than the exchange buffer. -/
def Dev.show (env : Env) (v : View) (s : Dev) : Res :=
  let s := { s with view := some v }
  match s.zui.openReview (v.viewer env.cr s.upl.buf) with
  | .shown z => ⟨{ s with zui := z }, .shown none, none⟩
  | .failed z => ⟨{ s with zui := { z with screen := .error } }, .shown none, none⟩
  | .rejected z =>
    ⟨{ v.reject s with zui := { z with screen := .error }, view := none },
      .shown (some (statusWord .commandNotAllowed)), none⟩
  | .panic => s.fault .panic
  | .hang => s.fault .hang

/-! ### Commands -/

/-- The handlers the dispatcher can reach. -/
inductive Cmd where
  | reset | queryMain | queryAll
  | authorize | deauthorize | queryAuth (withCurve : Bool) | setup | hmac
  | bakerSign (sendHash : Bool) | sign (sendHash : Bool)
  | legacyVersion | git | version
  | getKey | promptAddr | getAddr
  deriving DecidableEq, Repr

/-- rust/app/src/dispatcher.rs 36-88 (instruction codes) and 141-195 (dispatch);
rust/app/src/handlers/legacy/signing.rs 29-117 for the signing commands that differ between the builds. For the
`dev` feature see `develCommand`. -/
def command (b : Build) (ins : UInt8) : Option Cmd :=
  match b with
  | .baking =>
    if ins = 0x06 then some .reset
    else if ins = 0x08 then some .queryMain
    else if ins = 0x0B then some .queryAll
    else if ins = 0xA1 ∨ ins = 0x01 then some .authorize
    else if ins = 0xAC ∨ ins = 0x0C then some .deauthorize
    else if ins = 0xA7 ∨ ins = 0x07 then some (.queryAuth false)
    else if ins = 0xAD ∨ ins = 0x0D then some (.queryAuth true)
    else if ins = 0xAF then some (.bakerSign true)
    else if ins = 0x0A then some .setup
    else if ins = 0x0E then some .hmac
    else if ins = 0x04 then some (.bakerSign false)
    else if ins = 0x0F then some (.bakerSign true)
    else common ins
  | .wallet =>
    if ins = 0x05 then some (.sign false)
    else if ins = 0x04 then some (.sign false)
    else if ins = 0x0F then some (.sign true)
    else common ins
where
  /-- rust/app/src/dispatcher.rs 175-195, without the two legacy signing commands. -/
  common (ins : UInt8) : Option Cmd :=
    if ins = 0x00 then some .legacyVersion
    else if ins = 0x02 then some .getKey
    else if ins = 0x03 then some .promptAddr
    else if ins = 0x11 then some .getAddr
    else if ins = 0x09 then some .git
    else if ins = 0x12 then some (.sign true)
    else if ins = 0x10 then some .version
    else none

/-- rust/app/src/utils/apdu_wrapper.rs 95-103: `payload`. The declared length is compared with the size of the
exchange buffer, not with the number of bytes received. -/
def apduPayload (buf : Bytes) : Option Bytes :=
  let n := (buf.getD 4 0).toNat
  if 5 + n ≤ buf.length then some (slice buf 5 n) else none

/-- A curve and a path of at most `maxLen` components from a command: `Curve::try_from(p2)`, `payload()` and
`BIP32Path::read`, with the status words used by every handler reading them so. -/
def Dev.withPath (s : Dev) (maxLen : Nat) (p2 : UInt8) (payload : Option Bytes) (k : PathAndCurve → Res) : Res :=
  match Curve.ofByte p2 with
  | none => s.fail .invalidP1P2
  | some curve =>
    match payload with
    | none => s.fail .dataInvalid
    | some p =>
      match Path.read maxLen p with
      | .error _ => s.fail .dataInvalid
      | .ok path => k ⟨curve, path⟩

/-- rust/app/src/handlers/baking/authorization.rs 37-51, 61-76 and 78-103; rust/app/src/handlers/legacy/baking.rs
35-59. -/
def Dev.cmdAuthorize (env : Env) (p1 p2 : UInt8) (payload : Option Bytes) (s : Dev) : Res :=
  if p1 < 1 then s.fail .conditionsNotSatisfied else
  s.withPath bip32MaxLength p2 payload fun k =>
    match newAddr env.cr k.curve k.path with
    | none => s.fail .executionError
    | some a => s.show env (.authorize k a)

/-- rust/app/src/handlers/baking/authorization.rs 173-217; rust/app/src/handlers/legacy/baking.rs 61-81. -/
def Dev.cmdDeauthorize (env : Env) (p1 : UInt8) (s : Dev) : Res :=
  if p1 < 1 then s.fail .conditionsNotSatisfied else
  s.withKey .conditionsNotSatisfied .conditionsNotSatisfied fun k =>
    match newAddr env.cr k.curve k.path with
    | none => s.fail .executionError
    | some a => s.show env (.deauthorize a)

/-- rust/app/src/handlers/baking/queryauth.rs 34-63, 65-109 and 119-134; rust/app/src/handlers/legacy/baking.rs
83-111. -/
def Dev.cmdQueryAuth (env : Env) (withCurve : Bool) (p1 : UInt8) (s : Dev) : Res :=
  s.withKey .conditionsNotSatisfied .conditionsNotSatisfied fun k =>
    match newAddr env.cr k.curve k.path with
    | none => s.fail .executionError
    | some a =>
      if p1 ≥ 1 then s.show env (.query k a withCurve) else View.accept env (.query k a withCurve) s

/-- rust/app/src/handlers/legacy/baking/setup.rs 39-91 and 103-138. -/
def Dev.cmdSetup (env : Env) (p2 : UInt8) (payload : Option Bytes) (s : Dev) : Res :=
  match Curve.ofByte p2 with
  | none => s.fail .invalidP1P2
  | some curve =>
    match payload with
    | none => s.fail .dataInvalid
    | some p =>
      if p.length < 13 then s.fail .wrongLength else
      let n := (p.getD 12 0).toNat
      if p.length < 13 + 4 * n then s.fail .wrongLength else
      match Path.read bip32MaxLength (slice p 12 (1 + 4 * n)) with
      | .error _ => s.fail .dataInvalid
      | .ok path =>
        match newAddr env.cr curve path with
        | none => s.fail .executionError
        | some a =>
          s.show env (.setup ⟨curve, path⟩ a (u32OfBe (slice p 4 4)) (u32OfBe (slice p 8 4))
            (ChainID.ofU32 (u32OfBe (slice p 0 4))))

/-- rust/app/src/handlers/baking/hmac.rs 36-39: `KEY_SHA256`. -/
def hmacKeySha256 : Bytes :=
  [0x6c, 0x4e, 0x7e, 0x70, 0x6c, 0x54, 0xd3, 0x67, 0xc8, 0x7a, 0x8d, 0x89, 0xc1, 0x6a, 0xdf, 0xe0,
   0x6c, 0xb5, 0x68, 0x0c, 0xb7, 0xd1, 0x8e, 0x62, 0x5a, 0x90, 0x47, 0x5e, 0xc0, 0xdb, 0xdb, 0x9f]

/-- rust/app/src/handlers/legacy/hmac.rs 30-54 and rust/app/src/handlers/baking/hmac.rs 41-86. The signature made on
the way is hashed and not handed out. -/
def Dev.cmdHmac (env : Env) (p2 : UInt8) (payload : Option Bytes) (s : Dev) : Res :=
  match Curve.ofByte p2 with
  | none => s.fail .invalidP1P2
  | some curve =>
    match payload with
    | none => s.fail .dataInvalid
    | some p =>
      if p.length = 0 then s.fail .wrongLength else
      let n := (p.getD 0 0).toNat
      if p.length < 1 + 4 * n then s.fail .wrongLength else
      match Path.read bip32MaxLength (p.take (1 + 4 * n)) with
      | .error _ => s.fail .dataInvalid
      | .ok path =>
        match env.cr.sign curve path hmacKeySha256 with
        | none => s.fail .executionError
        | some sig =>
          match env.cr.sha512 sig with
          | none => s.fail .executionError
          | some k =>
            match env.cr.hmac k (p.drop (1 + 4 * n)) with
            | none => s.fail .executionError
            | some mac => s.ok mac

/-- rust/app/src/handlers/public_key.rs 73-142: `GetAddress`; rust/app/src/handlers/legacy/public_key.rs 72-125:
`LegacyPromptAddress` always asks for confirmation. -/
def Dev.cmdAddr (env : Env) (confirm : Bool) (p2 : UInt8) (payload : Option Bytes) (s : Dev) : Res :=
  s.withPath 6 p2 payload fun k =>
    match env.cr.publicKey k.curve k.path with
    | none => s.fail .executionError
    | some key =>
      match Addr.ofKey env.cr k.curve key with
      | none => s.fail .dataInvalid
      | some a => if confirm then s.show env (.addr a key true) else View.accept env (.addr a key true) s

/-- rust/app/src/handlers/legacy/public_key.rs 34-70: `LegacyGetPublic`. -/
def Dev.cmdGetKey (env : Env) (p2 : UInt8) (payload : Option Bytes) (s : Dev) : Res :=
  s.withPath 6 p2 payload fun k =>
    match env.cr.publicKey k.curve k.path with
    | none => s.fail .executionError
    | some key => s.ok (keyReply key)

/-- rust/app/src/handlers/signing.rs 78-114: `start_sign`. -/
def Dev.startSign (env : Env) (sendHash : Bool) (p2 : UInt8) (first data : Bytes) (ref : MemRef) (s : Dev) : Res :=
  s.withPath bip32MaxLength p2 (some first) fun k =>
    let s := { s with path := some (k.path, k.curve) }
    match env.cr.blake2b 32 data with
    | none => s.fail .executionError
    | some digest =>
      match Preamble.parse data with
      | .error .panic => s.fault .panic
      | .error .err => s.fail .dataInvalid
      | .ok (rem, .operation) =>
        match operationNew rem with
        | .error .panic => s.fault .panic
        | .error .err => s.fail .dataInvalid
        | .ok _ => s.show env (.sign sendHash digest (some ⟨ref.inFlash, ref.off + 1, ref.len - 1⟩) data)
      | .ok (_, .michelson) => s.show env (.sign sendHash digest none data)
      | .ok _ => s.fail .commandNotAllowed

/-- rust/app/src/handlers/baking.rs 192-245 and 248-287: `handle_endorsement` and `handle_blockdata`; `decide` is the
part between reading and writing the watermark. -/
def Dev.autoSign (env : Env) (sendHash : Bool) (digest msg : Bytes) (decide : WaterMark → Except HErr WaterMark)
    (s : Dev) : Res :=
  s.withRead s.main.read .executionError fun b =>
    match decide (WaterMark.decode b) with
    | .error .panic => s.fault .panic
    | .error (.err e) => s.fail e
    | .ok w =>
      let r := s.writeMain env w
      r.1.afterWrite r.2 .executionError fun s => s.bakingSign env sendHash digest msg

/-- rust/app/src/handlers/baking.rs 290-329: `handle_delegation`. -/
def Dev.handleDelegation (env : Env) (sendHash : Bool) (digest rem msg : Bytes) (ref : MemRef) (s : Dev) : Res :=
  match operationNew rem with
  | .error .panic => s.fault .panic
  | .error .err => s.fail .dataInvalid
  | .ok (_, ops) =>
    match parseNext ops with
    | .error .panic => s.fault .panic
    | .error .err => s.fail .dataInvalid
    | .ok none => s.fail .dataInvalid
    | .ok (some (_, .delegation d)) => s.show env (.bakingSign sendHash digest ref (.delegation d) msg)
    | .ok (some (_, .reveal r)) => s.show env (.bakingSign sendHash digest ref (.reveal r) msg)
    | .ok (some _) => s.fail .commandNotAllowed

/-- rust/app/src/handlers/baking.rs 332-368: `baker_sign`. -/
def Dev.bakerSign (env : Env) (sendHash : Bool) (p2 : UInt8) (first data : Bytes) (ref : MemRef) (s : Dev) : Res :=
  s.withPath bip32MaxLength p2 (some first) fun k =>
    s.withKey .conditionsNotSatisfied .conditionsNotSatisfied fun stored =>
      if stored ≠ k then s.fail .dataInvalid else
      match env.cr.blake2b 32 data with
      | none => s.fail .executionError
      | some digest =>
        match Preamble.parse data with
        | .error .panic => s.fault .panic
        | .error .err => s.fail .dataInvalid
        | .ok (rem, p) =>
          match p with
          | .tenderbakePreendorsement | .tenderbakeEndorsement | .endorsement =>
            s.autoSign env sendHash digest data (endorsementDecide p rem)
          | .tenderbakeBlock | .block => s.autoSign env sendHash digest data (blockDecide p rem)
          | .operation =>
            s.handleDelegation env sendHash digest rem data ⟨ref.inFlash, ref.off + 1, ref.len - 1⟩
          | _ => s.fail .commandNotAllowed

/-- The signing commands: rust/app/src/handlers/signing.rs 116-133, rust/app/src/handlers/baking.rs 462-484,
rust/app/src/handlers/legacy/signing.rs 29-135. A complete upload is given to `finish`; dropping it afterwards frees
the buffer. -/
def Dev.cmdUpload (env : Env) (acc : Accessor) (p1 p2 : UInt8) (payload : Option Bytes)
    (finish : UInt8 → Bytes → Bytes → MemRef → Dev → Res) (s : Dev) : Res :=
  let r := s.upl.upload env.copyF env.appendF acc p1 p2 payload
  let s := { s with upl := r.1 }
  match r.2 with
  | .more => s.ok []
  | .err e => s.fail e
  | .panic => s.fault .panic
  | .powerLoss => s.fault .powerLoss
  | .complete p2 first data ref =>
    let f := finish p2 first data ref s
    { f with st := { f.st with upl := f.st.upl.drop acc } }

/-- Running a command. The version replies are rust/app/src/handlers/legacy/version.rs 34-82 and
rust/app/src/handlers/version.rs 24-48. -/
def Dev.exec (cfg : Config) (env : Env) (c : Cmd) (p1 p2 : UInt8) (payload : Option Bytes) (s : Dev) : Res :=
  match c with
  | .reset => s.cmdReset env payload
  | .queryMain => s.cmdQueryMain
  | .queryAll => s.cmdQueryAll
  | .authorize => s.cmdAuthorize env p1 p2 payload
  | .deauthorize => s.cmdDeauthorize env p1
  | .queryAuth wc => s.cmdQueryAuth env wc p1
  | .setup => s.cmdSetup env p2 payload
  | .hmac => s.cmdHmac env p2 payload
  | .bakerSign h =>
    s.cmdUpload env .baking p1 p2 payload fun p2 first data ref s => s.bakerSign env h p2 first data ref
  | .sign h => s.cmdUpload env .sign p1 p2 payload fun p2 first data ref s => s.startSign env h p2 first data ref
  | .legacyVersion => s.ok [match cfg.build with | .baking => 1 | .wallet => 0, cfg.major, cfg.minor, cfg.patch]
  | .git => s.ok (cfg.commit ++ [0])
  | .version => s.ok ([0, cfg.major, cfg.minor, cfg.patch, 0] ++ be32 cfg.target)
  | .getKey => s.cmdGetKey env p2 payload
  | .promptAddr => s.cmdAddr env true p2 payload
  | .getAddr => s.cmdAddr env (p1 ≥ 1) p2 payload

/-- rust/app/src/utils/apdu_wrapper.rs 57-69 (`new`) and rust/app/src/dispatcher.rs 111-196 (`apdu_dispatch`). -/
def Dev.dispatch (cfg : Config) (env : Env) (buf : Bytes) (rx : Nat) (s : Dev) : Res :=
  if buf.length < 5 ∨ rx < 5 ∨ buf.length < rx then s.fail .wrongLength
  else if buf.getD 0 0 ≠ 0x80 then s.fail .claNotSupported
  else
    match command cfg.build (buf.getD 1 0) with
    | none => s.fail .commandNotAllowed
    | some c => s.exec cfg env c (buf.getD 2 0) (buf.getD 3 0) (apduPayload buf)

/-! ### Steps -/

/-- What can be seen from outside: the reply sent to the host, the signature in it, and whether the app stopped. -/
structure Output where
  reply : Option Bytes
  sig : Option SigRec
  fault : Option Fault
  deriving DecidableEq, Repr

def Output.quiet : Output := ⟨none, none, none⟩

/-- rust/app/src/dispatcher.rs 198-220 (`handle_apdu`) and rust/app/c/main.c 129-170; for approvals
rust/zemu/src/ui_toolkit.rs 59-69. A panic ends the app (rust/bolos-impl/src/lib.rs 55-70). -/
def Res.deliver (r : Res) : Dev × Output :=
  match r.out with
  | .ok data => (r.st, ⟨some (data ++ statusWord .success), r.sig, none⟩)
  | .err e => (r.st, ⟨some (statusWord e), none, none⟩)
  | .shown early => (r.st, ⟨early, none, none⟩)
  | .fault f => ({ r.st with running := false }, ⟨none, none, some f⟩)

/-- rust/zemu/src/ui_toolkit.rs 55-70: `approve`. -/
def Dev.approve (env : Env) (s : Dev) : Dev × Output :=
  let s := { s with zui := { s.zui with screen := .idle } }
  match s.view with
  | none => (s, .quiet)
  | some v =>
    let r := (v.accept env s).deliver
    ({ r.1 with view := none }, r.2)

/-- rust/zemu/src/ui_toolkit.rs 72-87: `reject`. -/
def Dev.reject (s : Dev) : Dev × Output :=
  let s := { s with zui := { s.zui with screen := .idle } }
  match s.view with
  | none => (s, .quiet)
  | some v => ({ v.reject s with view := none }, ⟨some (statusWord .commandNotAllowed), none, none⟩)

/-- rust/zemu/src/ui_toolkit.rs 89-104: `accept_error`. -/
def Dev.acceptError (s : Dev) : Dev × Output :=
  let s := { s with zui := { s.zui with screen := .idle } }
  match s.view with
  | none => (s, .quiet)
  | some _ => ({ s with view := none }, ⟨some (statusWord .dataInvalid), none, none⟩)

/-- A button on the error screen: it closes the screen, or on the larger display moves in the error flow. -/
def Dev.onError (closes : Bool) (move : XError → XError) (s : Dev) : Dev × Output :=
  if closes then s.acceptError else ({ s with zui := s.zui.moveError move }, .quiet)

/-- rust/zemu/src/ui_toolkit/backends/nanos.rs 150-160: `update_review`, drawing the outcome of an update. -/
def Dev.redraw (u : Upd) (s : Dev) : Dev × Output :=
  match u with
  | .shown z => ({ s with zui := z }, .quiet)
  | .failed z => ({ s with zui := { z with screen := .error } }, .quiet)
  | .rejected z =>
    let r := { s with zui := z }.reject
    ({ r.1 with zui := { r.1.zui with screen := .error } }, r.2)
  | .panic => ({ s with running := false }, ⟨none, none, some .panic⟩)
  | .hang => ({ s with running := false }, ⟨none, none, some .hang⟩)

/-- The pending review as drawn now. -/
def Dev.viewer (env : Env) (s : Dev) : Option Viewer := s.view.map (View.viewer env.cr s.upl.buf)

/-- rust/zemu/src/ui_toolkit.rs 178-190: `review_action`. In expert mode the action is followed by a jump to the
approve item; after an approval or a rejection there is no review left and the jump fails. -/
def Dev.pressBoth (env : Env) (s : Dev) : Dev × Output :=
  let r := match s.zui.chosen with
    | .approve => s.approve env
    | .reject => s.reject
    | .nothing => (s, .quiet)
  if r.1.running ∧ r.1.zui.jumps then
    let j := r.1.redraw (r.1.zui.expertJump (r.1.viewer env))
    (j.1, ⟨r.2.reply <|> j.2.reply, r.2.sig, r.2.fault <|> j.2.fault⟩)
  else r

/-- Starting the app: RAM is fresh, flash is as it was. -/
def Dev.relaunch (s : Dev) : Dev :=
  { main := s.main.relaunch
    test := s.test.relaunch
    chain := s.chain.relaunch
    key := s.key.relaunch
    upl := Upl.init s.upl.buf.flash
    path := none
    zui := Zui.init s.zui.display
    view := none
    running := true }

/-- One event. Buttons act according to the screen (rust/app/refactor/view_s.c 80-112, rust/app/refactor/view_x.c
65-91); in the idle menu they only move around the menu, except for the expert mode entry (rust/app/refactor/view_s.c
50, rust/app/refactor/view_x.c 47, rust/zemu/src/ui_toolkit/backends/nanos.rs 172-176,
rust/zemu/src/ui_toolkit/backends/nanox.rs 201-207). -/
def Dev.step (cfg : Config) (env : Env) (ev : Event) (s : Dev) : Dev × Output :=
  match ev with
  | .relaunch => (s.relaunch, .quiet)
  | .apdu buf rx => if s.running then (s.dispatch cfg env buf rx).deliver else (s, .quiet)
  | .left =>
    if s.running then
      match s.zui.screen with
      | .review .. => s.redraw (s.zui.goLeft (s.viewer env))
      | .error => s.onError false .prev
      | .idle => (s, .quiet)
    else (s, .quiet)
  | .right =>
    if s.running then
      match s.zui.screen with
      | .review .. => s.redraw (s.zui.goRight (s.viewer env))
      | .error => s.onError s.zui.closesRight .next
      | .idle => (s, .quiet)
    else (s, .quiet)
  | .both =>
    if s.running then
      match s.zui.screen with
      | .review .. => s.pressBoth env
      | .error => s.onError s.zui.closesBoth id
      | .idle => (s, .quiet)
    else (s, .quiet)
  | .expert =>
    if s.running ∧ s.zui.screen = .idle then
      ({ s with zui := { s.zui with expert := !s.zui.expert } }, .quiet)
    else (s, .quiet)

/-- A device as delivered: the kind of its display and whatever the upload area of the flash contains. -/
structure NewDevice where
  display : Display
  upload : Bytes

/-- A device as flashed: rust/app/src/handlers/hwm.rs 26 and 36-43 (8 pages each), rust/app/src/handlers/baking.rs
40-46 (1 page). -/
def Dev.factory (new : NewDevice) : Dev :=
  { main := ⟨freshPages 8, none⟩
    test := ⟨freshPages 8, none⟩
    chain := ⟨freshPages 8, none⟩
    key := ⟨freshPages 1, none⟩
    upl := Upl.init new.upload
    path := none
    zui := Zui.init new.display
    view := none
    running := true }

/-- A run: the final state and what was seen at each event. -/
def Dev.run (cfg : Config) (s : Dev) : List (Env × Event) → Dev × List Output
  | [] => (s, [])
  | (env, ev) :: es =>
    let r := s.step cfg env ev
    let rest := r.1.run cfg es
    (rest.1, r.2 :: rest.2)

end Tezos
