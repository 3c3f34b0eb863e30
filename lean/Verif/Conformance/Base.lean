import Verif.RealHash
import Verif.Scenario
/-
Running the model on the test data of the repository. The files in this directory contain tests, not proofs: they are
evidence that the model computes what the code computes, since the expected values were not made with the model. They
come from /repo: the test vectors of zemu/test-vectors, the screenshots of zemu/snapshots (taken by the authors of the
app from an emulated device running it), and the unit and integration tests in rust. No property relies on them.

Keys and signatures are stand-ins, since no test of the repository fixes a key; hashes are the real ones.
-/
namespace Tezos.Conformance

/-! ### The hash functions have the sizes that the model asks of them -/

theorem seqNat_eq {α : Type} (n : Nat) (f : Nat → α) : seqNat n f = f n := by cases n <;> rfl

theorem force_eq {α : Type} (l : List Nat) (f : List Nat → α) : Sha2.force l f = f l := by
  induction l generalizing f with
  | nil => rfl
  | cons n l ih => rw [Sha2.force, seqNat_eq, ih]

theorem sha2_rounds_length (p : Sha2.Params) (ks w : List Nat) (a b c d e f g h : Nat) :
    (Sha2.rounds p ks w a b c d e f g h).length = 8 := by
  induction ks generalizing w a b c d e f g h with
  | nil => rfl
  | cons k ks ih =>
    cases w with
    | nil => rfl
    | cons w0 ws => simp only [Sha2.rounds, seqNat_eq, ih]

theorem sha2_compress_length (p : Sha2.Params) (s : List Nat) (b : Bytes) (h : s.length = 8) :
    (Sha2.compress p s b).length = 8 := by
  simp only [Sha2.compress, force_eq, id, List.length_zipWith, sha2_rounds_length, h, Nat.min_self]

theorem sha2_foldl_length (p : Sha2.Params) (l : List Bytes) (s : List Nat) (h : s.length = 8) :
    (l.foldl (Sha2.compress p) s).length = 8 := by
  induction l generalizing s with
  | nil => exact h
  | cons b l ih => exact ih _ (sha2_compress_length p s b h)

theorem flatMap_length_const {α : Type} (l : List α) (f : α → Bytes) (n : Nat) (h : ∀ a, (f a).length = n) :
    (l.flatMap f).length = l.length * n := by
  induction l with
  | nil => simp
  | cons a l ih => rw [List.flatMap_cons, List.length_append, h, ih, List.length_cons, Nat.succ_mul, Nat.add_comm]

theorem sha2_hash_length (p : Sha2.Params) (m : Bytes) (h : p.iv.length = 8) :
    (Sha2.hash p m).length = 8 * (p.bits / 8) := by
  rw [Sha2.hash, flatMap_length_const _ _ (p.bits / 8) (fun a => by simp [Sha2.bytesOf]), sha2_foldl_length _ _ _ h]

theorem blake_mix_eq {α : Type} (a b c d x y : Nat) (f : Nat → Nat → Nat → Nat → α) :
    ∃ a' b' c' d', Blake2b.mix a b c d x y f = f a' b' c' d' := by
  simp only [Blake2b.mix, seqNat_eq]
  exact ⟨_, _, _, _, rfl⟩

theorem blake_rounds_length (m : List Nat) (ss : List (List Nat)) (a b c d e f g h i j k l n o p q : Nat) :
    (Blake2b.rounds m ss a b c d e f g h i j k l n o p q).length = 8 := by
  induction ss generalizing a b c d e f g h i j k l n o p q with
  | nil => rfl
  | cons s ss ih => simp only [Blake2b.rounds, Blake2b.mix, seqNat_eq, ih]

theorem blake_compress_length (h : List Nat) (b : Bytes) (t : Nat) (last : Bool) (hh : h.length = 8) :
    (Blake2b.compress h b t last).length = 8 := by
  simp only [Blake2b.compress, force_eq, id, List.length_zipWith, blake_rounds_length, hh, Nat.min_self]

theorem blake_blocks_length (f t : Nat) (h : List Nat) (m : Bytes) (hh : h.length = 8) :
    (Blake2b.blocks f t h m).length = 8 := by
  induction f generalizing t h m with
  | zero => exact hh
  | succ f ih =>
    rw [Blake2b.blocks]
    split
    · exact blake_compress_length _ _ _ _ hh
    · exact ih _ _ _ (blake_compress_length _ _ _ _ hh)

theorem blake_length (n : Nat) (m : Bytes) (h : n ≤ 64) : (realBlake2b n m).length = n := by
  rw [realBlake2b, List.length_take, flatMap_length_const _ _ 8 (fun a => by simp [Sha2.bytesOf]),
    blake_blocks_length _ _ _ _ (by rw [List.length_set]; rfl)]
  omega

/-- The real hash functions, with stand-ins for keys and signatures. -/
def real : Crypto where
  sha256 m := some (realSha256 m)
  sha512 m := some (realSha512 m)
  blake2b n m := if n ≤ 64 then some (realBlake2b n m) else none
  hmac k m := some (realHmac k m)
  publicKey := Demo.crypto.publicKey
  sign := Demo.crypto.sign

/-- The instance with the real hash functions is one of those the theorems are about. -/
theorem real_sized : real.Sized where
  sha256 := by
    intro m d h
    cases h
    exact sha2_hash_length Sha2.sha256Params m rfl
  sha512 := by
    intro m d h
    cases h
    exact sha2_hash_length Sha2.sha512Params m rfl
  blake2b := by
    intro n m d h
    by_cases hn : n ≤ 64
    · have h' : some (realBlake2b n m) = some d := by rw [← h]; exact (if_pos hn).symm
      cases h'
      exact blake_length n m hn
    · have h' : (none : Option Bytes) = some d := by rw [← h]; exact (if_neg hn).symm
      cases h'
  hmac := by
    intro k m d h
    cases h
    exact sha2_hash_length Sha2.sha256Params _ rfl
  publicKey := by
    intro c p k h
    cases h
    cases c <;> simp [Demo.hash]
  sign := by
    intro c p d s h
    cases h
    simp [Demo.hash]

/-! ### Notation of the tests -/

def digit (c : Char) : Nat := if c.toNat < 58 then c.toNat - 48 else c.toNat - 87

def pairs : List Char → Bytes
  | a :: b :: r => UInt8.ofNat (16 * digit a + digit b) :: pairs r
  | _ => []

/-- Bytes in hexadecimal. -/
def hex (s : String) : Bytes := pairs s.toList

/-- Nothing fails, hashes are real. -/
def env : Env := { Demo.fine with cr := real }

/-- The derivation path of the tests: 44'/1729'/0'/0' (zemu/tests/common.ts 29). -/
def path : Bytes := [4, 0x80, 0, 0, 44, 0x80, 0, 6, 0xc1, 0x80, 0, 0, 0, 0x80, 0, 0, 0]

/-- What is on the display after each event. -/
def shots (cfg : Config) (s : Dev) : List Event → List Screen
  | [] => []
  | e :: es => (s.step cfg env e).1.zui.screen :: shots cfg (s.step cfg env e).1 es

/-- The answers to the events. -/
def replies (cfg : Config) (s : Dev) : List Event → List Bytes
  | [] => []
  | e :: es => (s.step cfg env e).2.reply.toList ++ replies cfg (s.step cfg env e).1 es

/-- The status words of the answers. -/
def statuses (cfg : Config) (s : Dev) (es : List Event) : List Bytes :=
  (replies cfg s es).map fun r => r.drop (r.length - 2)

/-- A screen of the two-line display. -/
def two (title : String) (line1 : String) (line2 : String := "") : Screen :=
  .review (ascii title) (ascii line1) (ascii line2)

/-- A new device. -/
def dev (d : Display) : Dev := Dev.factory ⟨d, []⟩

/-- The packets for a message of at most 250 bytes, with packet types 0 and 2 (rust/app/tests/prelude.rs 82-132). -/
def upload (ins : UInt8) (m : Bytes) : List Event := [Demo.apdu ins 0 0 path, Demo.apdu ins 2 0 m]

/-- Turning pages and pressing both buttons: `[n, 0]` in zemu/tests. -/
def turn (n : Nat) : List Event := List.replicate n .right ++ [.both]

/-! ### The hash functions on their published test messages -/

example : realSha256 (ascii "abc") =
    hex "ba7816bf8f01cfea414140de5dae2223b00361a396177a9cb410ff61f20015ad" := by decide +kernel

example : realSha512 (ascii "abc") =
    hex ("ddaf35a193617abacc417349ae20413112e6fa4e89a97ea20a9eeee64b55d39a" ++
      "2192992a274fc1a836ba3c23a3feebbd454d4423643ce80e2a9ac94fa54ca49f") := by decide +kernel

example : realBlake2b 64 (ascii "abc") =
    hex ("ba80a53f981c4d0d6a2797b69f12f6e94c212f14685ac4b74b12bb6fdbffa2d1" ++
      "7d87c5392aab792dc252d5de4533cc9518d38aa8dbf1925ab92386edd4009923") := by decide +kernel

example : realHmac (ascii "Jefe") (ascii "what do ya want for nothing?") =
    hex "5bdcc146bf60754e6a042426089575c75a003f089d2739839dec58b964ec3843" := by decide +kernel

end Tezos.Conformance
