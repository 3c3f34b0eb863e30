import Verif.Device
/- The exchange buffer. Commands arrive in it, replies are written into it, and the pending review is stored at its
end: rust/zemu/src/ui_toolkit/backends/nanos.rs 188-232 (rust/zemu/src/ui_toolkit/backends/nanox.rs 209-251 and
rust/zemu/src/ui_toolkit/backends/nanosplus.rs are the same). `Dev` leaves the buffer to its events and takes the
review as safe; here both are followed. -/
namespace Tezos

/-- rust/bolos-sys/src/bindings/bindingsS.rs 257-258, rust/bolos-sys/src/bindings/bindingsSP.rs 53-54,
rust/bolos-sys/src/bindings/bindingsX.rs 52-53. -/
def exchangeSize : Nat := 260

/-- How the compiler lays out reviews in memory: the bytes of a review, and what the code takes bytes at the place of a
review for (the first argument only says of which type the review is: the table of methods,
rust/zemu/src/ui/manual_vtable.rs 32-80, is kept elsewhere).

The sizes on these 32 bit processors, from the types: `SignUI` (rust/app/src/handlers/signing.rs 135-139) 52 bytes,
`BakingSignUI` (rust/app/src/handlers/baking.rs 371-381) 112, `AddrUI` (rust/app/src/handlers/public_key.rs 254-262)
104, `AuthorizeUI` (rust/app/src/handlers/baking/authorization.rs 53-59) 72, `DeAuthorizeUI` (193-195) 27,
`QueryAuthUI` (rust/app/src/handlers/baking/queryauth.rs 111-117) 76, `SetupUI`
(rust/app/src/handlers/legacy/baking/setup.rs 93-101) 88. Only that they leave room for the longest reply, of 134
bytes, is used. -/
structure Layout where
  store : View → Bytes
  load : View → Bytes → View
  load_store : ∀ v, load v (store v) = v
  small : ∀ v, (store v).length ≤ 126

/-- The app with its exchange buffer and `viewable_size` (rust/zemu/src/ui_toolkit/backends/nanos.rs 45). -/
structure Board where
  dev : Dev
  buf : Bytes
  size : Nat

/-- What comes from outside: a command of the host, the buttons, expert mode, and starting the app, which leaves
anything in the exchange buffer. -/
inductive Input where
  | command (data : Bytes)
  | left | right | both
  | expert
  | relaunch (ram : Bytes)
  deriving DecidableEq, Repr

/-- The contents of some memory of `n` bytes. -/
def fit (n : Nat) (bs : Bytes) : Bytes := (bs ++ List.replicate n 0).take n

/-- Receiving a command: rust/app/c/main.c 83 reads at most as many bytes as the buffer has. -/
def Board.receive (data : Bytes) (x : Board) : Board :=
  { x with buf := overwrite x.buf 0 (data.take exchangeSize) }

/-- The pending review is whatever its memory says. -/
def Board.load (L : Layout) (x : Board) : Board :=
  { x with dev := { x.dev with view := x.dev.view.map fun v => L.load v (x.buf.drop (exchangeSize - x.size)) } }

/-- rust/zemu/src/ui_toolkit/backends/nanos.rs 203-232: `store_viewable`. -/
def Board.store (L : Layout) (v : View) (x : Board) : Board :=
  { x with buf := overwrite x.buf (exchangeSize - (L.store v).length) (L.store v), size := (L.store v).length }

/-- Writing a reply to a part of `room` bytes at the start of the buffer; too long a reply aborts the app. -/
def Board.reply (room : Nat) (bs : Bytes) (out : Output) (x : Board) : Board × Output :=
  if bs.length ≤ room then ({ x with buf := overwrite x.buf 0 bs }, out)
  else ({ x with dev := { x.dev with running := false } }, ⟨none, none, some .panic⟩)

/-- rust/app/src/dispatcher.rs 198-220: `handle_apdu`. The handlers write their reply to the whole buffer. Opening a
review also leaves a success status, which is not sent (rust/zemu/src/ui.rs 88, rust/app/c/main.c 132-140). What a
review that rejects itself while being drawn leaves in the buffer is not followed. -/
def Board.handle (L : Layout) (cfg : Config) (env : Env) (rx : Nat) (x : Board) : Board × Output :=
  let r := x.dev.dispatch cfg env x.buf rx
  let x := { x with dev := r.deliver.1 }
  match r.out with
  | .ok data => x.reply exchangeSize (data ++ statusWord .success) r.deliver.2
  | .err e => x.reply exchangeSize (statusWord e) r.deliver.2
  | .shown _ =>
    let x := match r.st.view with
      | some v => x.store L v
      | none => x
    x.reply exchangeSize (statusWord .success) r.deliver.2
  | .fault _ => (x, r.deliver.2)

/-- A button: a reply is written to the part of the buffer before the review
(rust/zemu/src/ui_toolkit/backends/nanos.rs 188-192, rust/zemu/src/ui_toolkit.rs 55-104). -/
def Board.press (L : Layout) (cfg : Config) (env : Env) (ev : Event) (x : Board) : Board × Output :=
  if x.dev.running then
    let r := (x.load L).dev.step cfg env ev
    match r.2.reply with
    | some bs => { x with dev := r.1 }.reply (exchangeSize - x.size) bs r.2
    | none => ({ x with dev := r.1 }, r.2)
  else (x, .quiet)

/-- One event. -/
def Board.step (L : Layout) (cfg : Config) (env : Env) (i : Input) (x : Board) : Board × Output :=
  match i with
  | .command data =>
    if x.dev.running then ((x.receive data).load L).handle L cfg env (data.take exchangeSize).length else (x, .quiet)
  | .left => x.press L cfg env .left
  | .right => x.press L cfg env .right
  | .both => x.press L cfg env .both
  | .expert => x.press L cfg env .expert
  | .relaunch ram => (⟨x.dev.relaunch, fit exchangeSize ram, 0⟩, .quiet)

/-- A device as delivered, with anything in the exchange buffer. -/
def Board.factory (new : NewDevice) (ram : Bytes) : Board := ⟨Dev.factory new, fit exchangeSize ram, 0⟩

/-- A run: the final state and what was seen at each event. -/
def Board.run (L : Layout) (cfg : Config) (x : Board) : List (Env × Input) → Board × List Output
  | [] => (x, [])
  | (env, i) :: es =>
    let r := x.step L cfg env i
    let t := r.1.run L cfg es
    (t.1, r.2 :: t.2)

/-- A moment of a run of the board. -/
structure Board.At where
  board : Board
  env : Env
  input : Input
  out : Output

/-- The moments of a run. -/
def Board.trace (L : Layout) (cfg : Config) (x : Board) : List (Env × Input) → List Board.At
  | [] => []
  | (env, i) :: es => ⟨x, env, i, (x.step L cfg env i).2⟩ :: (x.step L cfg env i).1.trace L cfg es

end Tezos
