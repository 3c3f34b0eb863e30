import Verif.Histories
/-
A concrete device for the examples beside the theorems: a deterministic stand-in for the cryptography, an environment
in which nothing fails, and helpers to write APDUs. Nothing here is a model of the code.
-/
namespace Tezos.Demo

/-- A stand-in for a hash with an output of `n` bytes. -/
def hash (n : Nat) (m : Bytes) : Bytes := beEnc n ((beDec (1 :: m)) ^ 2 % (2 ^ 127 - 1))

/-- A stand-in for the cryptography. -/
def crypto : Crypto where
  sha256 m := some (hash 32 m)
  sha512 m := some (hash 64 m)
  blake2b n m := some (hash n m)
  hmac k m := some (hash 32 (k ++ m))
  publicKey c p :=
    some (hash (match c with | .ed25519 | .bip32Ed25519 => 33 | .secp256k1 | .secp256r1 => 65)
      (c.toByte :: p.flatMap be32))
  sign c p d := some (hash 64 (c.toByte :: p.flatMap be32 ++ d))

/-- Nothing fails. -/
def fine : Env := ⟨crypto, .done, .done, .done, .done, .done, .done⟩

/-- The power fails while the main watermark is written, leaving the page as `l` says. -/
def cut (l : PageLeft) : Env := { fine with mainF := .powerLoss l }

def bakingApp : Config := ⟨.baking, 2, 1, 0, ascii "0123abc", 0x33000004⟩
def walletApp : Config := ⟨.wallet, 2, 1, 0, ascii "0123abc", 0x33000004⟩

/-- An APDU in an exchange buffer of 260 bytes, zero after it. -/
def apdu (ins p1 p2 : UInt8) (data : Bytes) : Event :=
  .apdu ([0x80, ins, p1, p2, UInt8.ofNat data.length] ++ data ++ List.replicate (255 - data.length) 0)
    (5 + data.length)

/-- Events in which nothing fails. -/
def ok (l : List Event) : List (Env × Event) := l.map (fine, ·)

/-- 44'/1729' -/
def keyPath : Bytes := [2, 0x80, 0, 0, 44, 0x80, 0, 6, 0xc1]

/-- 44'/1729'/0' -/
def keyPath2 : Bytes := [3, 0x80, 0, 0, 44, 0x80, 0, 6, 0xc1, 0x80, 0, 0, 0]

def mainnet : Bytes := [0x7a, 0x06, 0xa7, 0x70]

/-- Setting up the key `keyPath` with main watermark `level`: the command, six pages, approval. -/
def setup (level : UInt32) : List (Env × Event) :=
  ok <| apdu 0x0A 0 0 (mainnet ++ be32 level ++ be32 0 ++ keyPath) :: List.replicate 6 .right ++ [.both]

/-- Resetting the watermark. -/
def reset (level : UInt32) : List (Env × Event) := ok [apdu 0x06 0 0 (be32 level)]

/-- Asking for a signature with `keyPath` in two packets. -/
def sign (m : Bytes) : List (Env × Event) := ok [apdu 0x04 0 0 keyPath, apdu 0x04 0x81 0 m]

/-- The same with the power failing at the watermark write, and a restart. -/
def signCut (l : PageLeft) (m : Bytes) : List (Env × Event) :=
  [(fine, apdu 0x04 0 0 keyPath), (cut l, apdu 0x04 0x81 0 m), (fine, .relaunch)]

/-- An Emmy block. -/
def emmyBlock (level : UInt32) (chain : Bytes := mainnet) : Bytes :=
  [0x01] ++ chain ++ be32 level ++ List.replicate 74 0 ++ [0, 0, 0, 5] ++ [0, 0, 0, 1, 0]

/-- An Emmy endorsement. -/
def emmyEndorsement (level : UInt32) : Bytes := [0x02] ++ mainnet ++ List.replicate 32 7 ++ [0] ++ be32 level

/-- A Tenderbake block; the last four bytes of the fitness are the round. -/
def tbBlock (level round : UInt32) (filler : UInt8 := 0) : Bytes :=
  [0x11] ++ mainnet ++ be32 level ++ List.replicate 74 filler ++ [0, 0, 0, 12] ++
    [0, 0, 0, 1, 2, 0, 0, 0] ++ be32 round

/-- A Tenderbake endorsement. -/
def tbEndorsement (level round : UInt32) : Bytes :=
  [0x13] ++ mainnet ++ List.replicate 32 7 ++ [21, 0, 1] ++ be32 level ++ be32 round ++ List.replicate 32 9

/-- A Tenderbake preendorsement. -/
def tbPreendorsement (level round : UInt32) : Bytes :=
  [0x12] ++ mainnet ++ List.replicate 32 7 ++ [20, 0, 1] ++ be32 level ++ be32 round ++ List.replicate 32 9

/-- Authorizing the key `path`: the command, three pages, approval. -/
def authorize (path : Bytes := keyPath) : List (Env × Event) :=
  ok <| apdu 0xA1 1 0 path :: List.replicate 3 .right ++ [.both]

/-- Removing the authorization: the command, three pages, approval. -/
def deauthorize : List (Env × Event) := ok <| apdu 0xAC 1 0 [] :: List.replicate 3 .right ++ [.both]

/-- An operation: one delegation. -/
def delegation (delegate : UInt8 := 0) : Bytes :=
  [0x03] ++ List.replicate 32 5 ++ [110] ++ List.replicate 21 0 ++ [1, 2, 3, 4] ++ [0xff, 0] ++
    List.replicate 20 delegate

/-- Asking for a signature with instruction `ins` and the key `path`, turning `pages` pages, approval. -/
def signReview (ins : UInt8) (m : Bytes) (pages : Nat) (path : Bytes := keyPath) : List (Env × Event) :=
  ok <| [apdu ins 0 0 path, apdu ins 0x81 0 m] ++ List.replicate pages .right ++ [.both]

/-- A factory-fresh device. -/
def fresh : Dev := Dev.factory ⟨.small, []⟩

/-- The messages signed in a run, with the position of the event. -/
def signedAt (cfg : Config) (es : List (Env × Event)) (i : Nat) : Option Bytes :=
  ((fresh.trace cfg es)[i]?.bind fun m => m.out.sig).map SigRec.msg

/-! ### Deciding the hypotheses of the history theorems -/

def isReview : Screen → Bool
  | .review .. => true
  | _ => false

def isSetup : Option View → Bool
  | some (.setup ..) => true
  | _ => false

theorem overrides_iff (cfg : Config) (s : Dev) (ev : Event) :
    Overrides cfg s ev ↔ match ev with
      | .apdu buf rx => s.running = true ∧ (5 ≤ rx ∧ rx ≤ buf.length) ∧ buf[0]? = some 0x80 ∧
          (buf[1]?.bind (command cfg.build)) = some .reset
      | .both => s.running = true ∧ isReview s.zui.screen = true ∧ s.zui.chosen = .approve ∧ isSetup s.view = true
      | _ => False := by
  constructor
  · intro h
    cases h with
    | reset buf rx h =>
      obtain ⟨rfl, h1, h2, h3, ins, h4, h5⟩ := h
      exact ⟨h1, h2, h3, by rw [h4]; exact h5⟩
    | setup k a m t ch h =>
      obtain ⟨h1, rfl, ⟨k, l1, l2, h2⟩, h3, h4⟩ := h
      exact ⟨h1, by rw [h2]; rfl, h3, by rw [h4]; rfl⟩
  · intro h
    cases ev with
    | apdu buf rx =>
      obtain ⟨h1, h2, h3, h4⟩ := h
      cases hb : buf[1]? with
      | none => rw [hb] at h4; cases h4
      | some ins => rw [hb] at h4; exact .reset buf rx ⟨rfl, h1, h2, h3, ins, hb, h4⟩
    | both =>
      obtain ⟨h1, h2, h3, h4⟩ := h
      cases hv : s.view with
      | none => rw [hv] at h4; cases h4
      | some v =>
        rw [hv] at h4
        cases hs : s.zui.screen with
        | review k l1 l2 =>
          cases v <;> first
            | exact .setup _ _ _ _ _ ⟨h1, rfl, ⟨k, l1, l2, hs⟩, h3, hv⟩
            | cases h4
        | _ => rw [hs] at h2; cases h2
    | _ => exact h.elim

instance (cfg : Config) (s : Dev) (ev : Event) : Decidable (Overrides cfg s ev) :=
  match ev with
  | .apdu buf rx => decidable_of_iff (s.running = true ∧ (5 ≤ rx ∧ rx ≤ buf.length) ∧ buf[0]? = some 0x80 ∧
      (buf[1]?.bind (command cfg.build)) = some .reset) (overrides_iff cfg s (.apdu buf rx)).symm
  | .both => decidable_of_iff (s.running = true ∧ isReview s.zui.screen = true ∧ s.zui.chosen = .approve ∧
      isSetup s.view = true) (overrides_iff cfg s .both).symm
  | .left => isFalse fun h => (overrides_iff cfg s .left).mp h
  | .right => isFalse fun h => (overrides_iff cfg s .right).mp h
  | .expert => isFalse fun h => (overrides_iff cfg s .expert).mp h
  | .relaunch => isFalse fun h => (overrides_iff cfg s .relaunch).mp h

/-- The review the user approves at an event. -/
def approved (s : Dev) (ev : Event) : Option View :=
  if s.running = true ∧ ev = .both ∧ isReview s.zui.screen = true ∧ s.zui.chosen = .approve then s.view else none

theorem approved_iff (s : Dev) (ev : Event) (v : View) : approved s ev = some v ↔ Approves s ev v := by
  unfold approved
  constructor
  · intro h
    split at h
    · rename_i hc
      obtain ⟨h1, h2, h3, h4⟩ := hc
      cases hs : s.zui.screen with
      | review k l1 l2 => exact ⟨h1, h2, ⟨k, l1, l2, hs⟩, h4, h⟩
      | _ => rw [hs] at h3; cases h3
    · cases h
  · intro h
    obtain ⟨h1, h2, ⟨k, l1, l2, h3⟩, h4, h5⟩ := h
    rw [if_pos ⟨h1, h2, by rw [h3]; rfl, h4⟩, h5]

instance (l : PageLeft) : Decidable l.Detected :=
  match l with
  | .unchanged => isTrue trivial
  | .complete => isTrue trivial
  | .other p =>
    if h : (Slot.ofPage p).isNone then isTrue (Option.isNone_iff_eq_none.mp h)
    else isFalse fun hh => h (Option.isNone_iff_eq_none.mpr hh)

instance (f : Fate) : Decidable f.Sound :=
  match f with
  | .done => isTrue trivial
  | .powerLoss l => inferInstanceAs (Decidable l.Detected)
  | .fails _ => isFalse id

instance (f : Fate) : Decidable f.Detected :=
  match f with
  | .done => isTrue trivial
  | .powerLoss l => inferInstanceAs (Decidable l.Detected)
  | .fails l => inferInstanceAs (Decidable l.Detected)

end Tezos.Demo
