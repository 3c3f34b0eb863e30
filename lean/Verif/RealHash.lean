import Verif.Crypto
/-
The hash functions that the device's system provides, computable: SHA-256, SHA-512 (FIPS 180-4), BLAKE2b (RFC 7693)
and HMAC-SHA-256 (RFC 2104). No theorem about the app depends on them; they are an instance of the parameters of the
model, with which the model is run on the test data of the repository (Conformance).
-/
namespace Tezos

/-- Evaluate a number before going on. -/
def seqNat {α : Type} (n : Nat) (f : Nat → α) : α :=
  match n with
  | 0 => f 0
  | k + 1 => f (k + 1)

namespace Sha2

/-- One member of the SHA-2 family: bits of a word, rotations and shifts of its four functions, constants. -/
structure Params where
  bits : Nat
  big0 : Nat × Nat × Nat
  big1 : Nat × Nat × Nat
  small0 : Nat × Nat × Nat
  small1 : Nat × Nat × Nat
  k : List Nat
  iv : List Nat

def rotr (bits x n : Nat) : Nat := (x >>> n ||| x <<< (bits - n)) % 2 ^ bits

def Params.s0 (p : Params) (x : Nat) : Nat :=
  rotr p.bits x p.big0.1 ^^^ rotr p.bits x p.big0.2.1 ^^^ rotr p.bits x p.big0.2.2
def Params.s1 (p : Params) (x : Nat) : Nat :=
  rotr p.bits x p.big1.1 ^^^ rotr p.bits x p.big1.2.1 ^^^ rotr p.bits x p.big1.2.2
def Params.t0 (p : Params) (x : Nat) : Nat :=
  rotr p.bits x p.small0.1 ^^^ rotr p.bits x p.small0.2.1 ^^^ x >>> p.small0.2.2
def Params.t1 (p : Params) (x : Nat) : Nat :=
  rotr p.bits x p.small1.1 ^^^ rotr p.bits x p.small1.2.1 ^^^ x >>> p.small1.2.2

/-- Choice and majority; `2 ^ bits - 1 - e` is the complement. -/
def ch (bits e f g : Nat) : Nat := (e &&& f) ^^^ ((2 ^ bits - 1 - e) &&& g)
def maj (a b c : Nat) : Nat := (a &&& b) ^^^ (a &&& c) ^^^ (b &&& c)

/-- The rounds: one constant each, with the sixteen words of the message schedule that are next. -/
def rounds (p : Params) :
    List Nat → List Nat → Nat → Nat → Nat → Nat → Nat → Nat → Nat → Nat → List Nat
  | [], _, a, b, c, d, e, f, g, h => [a, b, c, d, e, f, g, h]
  | k :: ks, w, a, b, c, d, e, f, g, h =>
    match w with
    | w0 :: ws =>
      seqNat ((p.t1 (w.getD 14 0) + w.getD 9 0 + p.t0 (w.getD 1 0) + w0) % 2 ^ p.bits) fun wn =>
      seqNat (h + p.s1 e + ch p.bits e f g + k + w0) fun x =>
      seqNat ((d + x) % 2 ^ p.bits) fun e' =>
      seqNat ((x + p.s0 a + maj a b c) % 2 ^ p.bits) fun a' =>
      rounds p ks (ws ++ [wn]) a' a b c e' e f g
    | [] => [a, b, c, d, e, f, g, h]

/-- A number from big-endian bytes. -/
def word (b : Bytes) : Nat := b.foldl (fun n x => 256 * n + x.toNat) 0

/-- Pieces of `n`; the fuel bounds their number. -/
def pieces (n : Nat) : Nat → Bytes → List Bytes
  | 0, _ => []
  | f + 1, b => if b = [] then [] else b.take n :: pieces n f (b.drop n)

/-- A list of numbers, each evaluated. -/
def force {α : Type} : List Nat → (List Nat → α) → α
  | [], f => f []
  | n :: l, f => seqNat n fun n => force l fun l => f (n :: l)

def compress (p : Params) (state : List Nat) (block : Bytes) : List Nat :=
  let at_ := fun i => state.getD i 0
  force ((pieces (p.bits / 8) 16 block).map word) fun w =>
  force (List.zipWith (fun x y => (x + y) % 2 ^ p.bits) state
    (rounds p p.k w (at_ 0) (at_ 1) (at_ 2) (at_ 3) (at_ 4) (at_ 5) (at_ 6) (at_ 7))) id

/-- The message, a bit, zeros, and the length in bits, up to a whole number of blocks of 16 words. -/
def padded (p : Params) (m : Bytes) : Bytes :=
  let block := 2 * p.bits
  let tail := p.bits / 4
  let zeros := (block - (m.length + 1 + tail) % block) % block
  m ++ [0x80] ++ List.replicate (zeros + tail - 8) 0 ++ be64 (UInt64.ofNat (8 * m.length))

def bytesOf (n size : Nat) : Bytes := (List.range size).map fun i => UInt8.ofNat (n >>> (8 * (size - 1 - i)))

def hash (p : Params) (m : Bytes) : Bytes :=
  let b := padded p m
  ((pieces (2 * p.bits) (b.length + 1) b).foldl (compress p) p.iv).flatMap fun n => bytesOf n (p.bits / 8)

def sha256Params : Params where
  bits := 32
  big0 := (2, 13, 22)
  big1 := (6, 11, 25)
  small0 := (7, 18, 3)
  small1 := (17, 19, 10)
  iv := [
   0x6a09e667, 0xbb67ae85, 0x3c6ef372, 0xa54ff53a, 0x510e527f, 0x9b05688c, 0x1f83d9ab, 0x5be0cd19]
  k := [
   0x428a2f98, 0x71374491, 0xb5c0fbcf, 0xe9b5dba5, 0x3956c25b, 0x59f111f1, 0x923f82a4, 0xab1c5ed5,
   0xd807aa98, 0x12835b01, 0x243185be, 0x550c7dc3, 0x72be5d74, 0x80deb1fe, 0x9bdc06a7, 0xc19bf174,
   0xe49b69c1, 0xefbe4786, 0x0fc19dc6, 0x240ca1cc, 0x2de92c6f, 0x4a7484aa, 0x5cb0a9dc, 0x76f988da,
   0x983e5152, 0xa831c66d, 0xb00327c8, 0xbf597fc7, 0xc6e00bf3, 0xd5a79147, 0x06ca6351, 0x14292967,
   0x27b70a85, 0x2e1b2138, 0x4d2c6dfc, 0x53380d13, 0x650a7354, 0x766a0abb, 0x81c2c92e, 0x92722c85,
   0xa2bfe8a1, 0xa81a664b, 0xc24b8b70, 0xc76c51a3, 0xd192e819, 0xd6990624, 0xf40e3585, 0x106aa070,
   0x19a4c116, 0x1e376c08, 0x2748774c, 0x34b0bcb5, 0x391c0cb3, 0x4ed8aa4a, 0x5b9cca4f, 0x682e6ff3,
   0x748f82ee, 0x78a5636f, 0x84c87814, 0x8cc70208, 0x90befffa, 0xa4506ceb, 0xbef9a3f7, 0xc67178f2]

def sha512Params : Params where
  bits := 64
  big0 := (28, 34, 39)
  big1 := (14, 18, 41)
  small0 := (1, 8, 7)
  small1 := (19, 61, 6)
  iv := [
   0x6a09e667f3bcc908, 0xbb67ae8584caa73b, 0x3c6ef372fe94f82b, 0xa54ff53a5f1d36f1,
   0x510e527fade682d1, 0x9b05688c2b3e6c1f, 0x1f83d9abfb41bd6b, 0x5be0cd19137e2179]
  k := [
   0x428a2f98d728ae22, 0x7137449123ef65cd, 0xb5c0fbcfec4d3b2f, 0xe9b5dba58189dbbc, 0x3956c25bf348b538,
   0x59f111f1b605d019, 0x923f82a4af194f9b, 0xab1c5ed5da6d8118, 0xd807aa98a3030242, 0x12835b0145706fbe,
   0x243185be4ee4b28c, 0x550c7dc3d5ffb4e2, 0x72be5d74f27b896f, 0x80deb1fe3b1696b1, 0x9bdc06a725c71235,
   0xc19bf174cf692694, 0xe49b69c19ef14ad2, 0xefbe4786384f25e3, 0x0fc19dc68b8cd5b5, 0x240ca1cc77ac9c65,
   0x2de92c6f592b0275, 0x4a7484aa6ea6e483, 0x5cb0a9dcbd41fbd4, 0x76f988da831153b5, 0x983e5152ee66dfab,
   0xa831c66d2db43210, 0xb00327c898fb213f, 0xbf597fc7beef0ee4, 0xc6e00bf33da88fc2, 0xd5a79147930aa725,
   0x06ca6351e003826f, 0x142929670a0e6e70, 0x27b70a8546d22ffc, 0x2e1b21385c26c926, 0x4d2c6dfc5ac42aed,
   0x53380d139d95b3df, 0x650a73548baf63de, 0x766a0abb3c77b2a8, 0x81c2c92e47edaee6, 0x92722c851482353b,
   0xa2bfe8a14cf10364, 0xa81a664bbc423001, 0xc24b8b70d0f89791, 0xc76c51a30654be30, 0xd192e819d6ef5218,
   0xd69906245565a910, 0xf40e35855771202a, 0x106aa07032bbd1b8, 0x19a4c116b8d2d0c8, 0x1e376c085141ab53,
   0x2748774cdf8eeb99, 0x34b0bcb5e19b48a8, 0x391c0cb3c5c95a63, 0x4ed8aa4ae3418acb, 0x5b9cca4f7763e373,
   0x682e6ff3d6b2b8a3, 0x748f82ee5defb2fc, 0x78a5636f43172f60, 0x84c87814a1f0ab72, 0x8cc702081a6439ec,
   0x90befffa23631e28, 0xa4506cebde82bde9, 0xbef9a3f7b2c67915, 0xc67178f2e372532b, 0xca273eceea26619c,
   0xd186b8c721c0c207, 0xeada7dd6cde0eb1e, 0xf57d4f7fee6ed178, 0x06f067aa72176fba, 0x0a637dc5a2c898a6,
   0x113f9804bef90dae, 0x1b710b35131c471b, 0x28db77f523047d84, 0x32caab7b40c72493, 0x3c9ebe0a15c9bebc,
   0x431d67c49c100d4c, 0x4cc5d4becb3e42b6, 0x597f299cfc657e2a, 0x5fcb6fab3ad6faec, 0x6c44198c4a475817]

end Sha2

def realSha256 (m : Bytes) : Bytes := Sha2.hash Sha2.sha256Params m
def realSha512 (m : Bytes) : Bytes := Sha2.hash Sha2.sha512Params m

/-- HMAC with SHA-256: blocks of 64 bytes. -/
def realHmac (key m : Bytes) : Bytes :=
  let k0 := if 64 < key.length then realSha256 key else key
  let k := k0 ++ List.replicate (64 - k0.length) 0
  realSha256 (k.map (· ^^^ 0x5c) ++ realSha256 (k.map (· ^^^ 0x36) ++ m))

namespace Blake2b

def sigma : List (List Nat) := [
   [0, 1, 2, 3, 4, 5, 6, 7, 8, 9, 10, 11, 12, 13, 14, 15],
   [14, 10, 4, 8, 9, 15, 13, 6, 1, 12, 0, 2, 11, 7, 5, 3],
   [11, 8, 12, 0, 5, 2, 15, 13, 10, 14, 3, 6, 7, 1, 9, 4],
   [7, 9, 3, 1, 13, 12, 11, 14, 2, 6, 5, 10, 4, 0, 15, 8],
   [9, 0, 5, 7, 2, 4, 10, 15, 14, 1, 11, 12, 6, 8, 3, 13],
   [2, 12, 6, 10, 0, 11, 8, 3, 4, 13, 7, 5, 15, 14, 1, 9],
   [12, 5, 1, 15, 14, 13, 4, 10, 0, 7, 6, 3, 9, 2, 8, 11],
   [13, 11, 7, 14, 12, 1, 3, 9, 5, 0, 15, 4, 8, 6, 2, 10],
   [6, 15, 14, 9, 11, 3, 0, 8, 12, 2, 13, 7, 1, 4, 10, 5],
   [10, 2, 8, 4, 7, 6, 1, 5, 15, 11, 9, 14, 3, 12, 13, 0],
   [0, 1, 2, 3, 4, 5, 6, 7, 8, 9, 10, 11, 12, 13, 14, 15],
   [14, 10, 4, 8, 9, 15, 13, 6, 1, 12, 0, 2, 11, 7, 5, 3]]

def rotr (x n : Nat) : Nat := (x >>> n ||| x <<< (64 - n)) % 2 ^ 64

/-- The mixing function on four words. -/
def mix {α : Type} (a b c d x y : Nat) (f : Nat → Nat → Nat → Nat → α) : α :=
  seqNat ((a + b + x) % 2 ^ 64) fun a =>
  seqNat (rotr (d ^^^ a) 32) fun d =>
  seqNat ((c + d) % 2 ^ 64) fun c =>
  seqNat (rotr (b ^^^ c) 24) fun b =>
  seqNat ((a + b + y) % 2 ^ 64) fun a =>
  seqNat (rotr (d ^^^ a) 16) fun d =>
  seqNat ((c + d) % 2 ^ 64) fun c =>
  seqNat (rotr (b ^^^ c) 63) fun b => f a b c d

def rounds (m : List Nat) : List (List Nat) → Nat → Nat → Nat → Nat → Nat → Nat → Nat → Nat →
    Nat → Nat → Nat → Nat → Nat → Nat → Nat → Nat → List Nat
  | [], v0, v1, v2, v3, v4, v5, v6, v7, v8, v9, v10, v11, v12, v13, v14, v15 =>
    [v0 ^^^ v8, v1 ^^^ v9, v2 ^^^ v10, v3 ^^^ v11, v4 ^^^ v12, v5 ^^^ v13, v6 ^^^ v14, v7 ^^^ v15]
  | s :: ss, v0, v1, v2, v3, v4, v5, v6, v7, v8, v9, v10, v11, v12, v13, v14, v15 =>
    let x := fun i => m.getD (s.getD i 0) 0
    mix v0 v4 v8 v12 (x 0) (x 1) fun v0 v4 v8 v12 =>
    mix v1 v5 v9 v13 (x 2) (x 3) fun v1 v5 v9 v13 =>
    mix v2 v6 v10 v14 (x 4) (x 5) fun v2 v6 v10 v14 =>
    mix v3 v7 v11 v15 (x 6) (x 7) fun v3 v7 v11 v15 =>
    mix v0 v5 v10 v15 (x 8) (x 9) fun v0 v5 v10 v15 =>
    mix v1 v6 v11 v12 (x 10) (x 11) fun v1 v6 v11 v12 =>
    mix v2 v7 v8 v13 (x 12) (x 13) fun v2 v7 v8 v13 =>
    mix v3 v4 v9 v14 (x 14) (x 15) fun v3 v4 v9 v14 =>
    rounds m ss v0 v1 v2 v3 v4 v5 v6 v7 v8 v9 v10 v11 v12 v13 v14 v15

/-- One block of 128 bytes: `t` bytes of the message are hashed with it; `last` is set for the last one. -/
def compress (h : List Nat) (block : Bytes) (t : Nat) (last : Bool) : List Nat :=
  let at_ := fun i => h.getD i 0
  let iv := fun i => Sha2.sha512Params.iv.getD i 0
  Sha2.force ((Sha2.pieces 8 16 block).map fun b => Sha2.word b.reverse) fun m =>
  Sha2.force (List.zipWith (· ^^^ ·) h
    (rounds m sigma (at_ 0) (at_ 1) (at_ 2) (at_ 3) (at_ 4) (at_ 5) (at_ 6) (at_ 7) (iv 0) (iv 1) (iv 2) (iv 3)
      (iv 4 ^^^ t % 2 ^ 64) (iv 5 ^^^ t / 2 ^ 64) (if last then 2 ^ 64 - 1 - iv 6 else iv 6) (iv 7))) id

/-- The blocks of a message, with the number of bytes before them; the last one is filled with zeros. -/
def blocks : Nat → Nat → List Nat → Bytes → List Nat
  | 0, _, h, _ => h
  | f + 1, t, h, m =>
    if m.length ≤ 128 then compress h (m ++ List.replicate (128 - m.length) 0) (t + m.length) true
    else blocks f (t + 128) (compress h (m.take 128) (t + 128) false) (m.drop 128)

end Blake2b

/-- BLAKE2b without a key, for an output of `n` bytes (at most 64). -/
def realBlake2b (n : Nat) (m : Bytes) : Bytes :=
  let h := Sha2.sha512Params.iv.set 0 (Sha2.sha512Params.iv.getD 0 0 ^^^ 0x01010000 ^^^ n)
  ((Blake2b.blocks (m.length + 1) 0 h m).flatMap fun x => (Sha2.bytesOf x 8).reverse).take n

end Tezos
