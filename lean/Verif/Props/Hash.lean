import Verif.Hash
import Verif.Props.Queries
/-
C77: what the app computes with the hash calls of the system. The promise asked of the system is only about contexts that
were initialized and then fed; it says nothing about a context whose output was taken, nor about fresh memory.
-/
namespace Tezos

/-- The functions that the calls stand for. -/
structure HashFns where
  of : HashId → Bytes → Bytes
  mac : Bytes → Bytes → Bytes

/-- The sizes of the outputs in bytes. -/
def HashId.size : HashId → Nat
  | .sha256 => 32
  | .sha512 => 64
  | .blake2b bits => bits.toNat / 8

/-- A context that was initialized for `h` and fed with the bytes `m`, in any number of calls. -/
inductive HashSys.Fed (sys : HashSys) (h : HashId) : sys.Ctx → Bytes → Prop
  | init {u c : sys.Ctx} (hi : sys.init h u = some c) : sys.Fed h c []
  | more {c c' : sys.Ctx} {m x out : Bytes} (hc : sys.Fed h c m) (hx : sys.hash c 0 x 0 = some (c', out)) :
      sys.Fed h c' (m ++ x)

/-- A context that was initialized for HMAC with `key` and fed with the bytes `m`. -/
inductive HashSys.Keyed (sys : HashSys) (key : Bytes) : sys.Ctx → Bytes → Prop
  | init {u c : sys.Ctx} (hi : sys.hmacInit u key = some c) : sys.Keyed key c []
  | more {c c' : sys.Ctx} {m x out : Bytes} (hc : sys.Keyed key c m) (hx : sys.hmac c 32768 x 0 = some (c', out)) :
      sys.Keyed key c' (m ++ x)

/-- What the documentation of the calls promises (rust/bolos-sys/src/bindings/bindingsS.rs 3688-3721, 4488-4524). -/
structure HashSys.Sound (sys : HashSys) (H : HashFns) : Prop where
  hash : ∀ {h c m x c' out}, sys.Fed h c m → sys.hash c 1 x h.size = some (c', out) → out = H.of h (m ++ x)
  hmac : ∀ {key c m x c' out}, sys.Keyed key c m → sys.hmac c 32769 x 32 = some (c', out) → out = H.mac key (m ++ x)

/-! ### One call after the other -/

theorem HashSys.Fed.update {sys : HashSys} {h : HashId} {c c' : sys.Ctx} {m x : Bytes} (hc : sys.Fed h c m)
    (hx : sys.update c x = some c') : sys.Fed h c' (m ++ x) := by
  obtain ⟨r, hr, he⟩ := Option.bind_eq_some_iff.mp hx
  obtain rfl := Option.some.inj he
  exact hc.more (out := r.2) hr

theorem HashSys.Fed.updates {sys : HashSys} {h : HashId} {ps : List Bytes} : ∀ {c c' : sys.Ctx} {m : Bytes},
    sys.Fed h c m → sys.updates c ps = some c' → sys.Fed h c' (m ++ ps.flatten) := by
  induction ps with
  | nil =>
    intro c c' m hc hu
    obtain rfl := Option.some.inj hu
    simpa using hc
  | cons p ps ih =>
    intro c c' m hc hu
    obtain ⟨c1, h1, h2⟩ := Option.bind_eq_some_iff.mp hu
    have := ih (hc.update h1) h2
    simpa [List.append_assoc] using this

theorem HashSys.Sound.finalize {sys : HashSys} {H : HashFns} (hs : sys.Sound H) {h : HashId} {c : sys.Ctx}
    {m out : Bytes} {n : Nat} (hn : h.size = n) (hc : sys.Fed h c m) (hf : sys.finalize n c = some out) :
    out = H.of h m := by
  subst hn
  obtain ⟨r, hr, he⟩ := Option.bind_eq_some_iff.mp hf
  obtain rfl := Option.some.inj he
  have := hs.hash (c' := r.1) (out := r.2) hc hr
  simpa using this

theorem HashSys.Sound.finalizeDirty {sys : HashSys} {H : HashFns} (hs : sys.Sound H) {h : HashId} {c c' : sys.Ctx}
    {m out : Bytes} {n : Nat} (hn : h.size = n) (hc : sys.Fed h c m) (hf : sys.finalizeDirty n c = some (c', out)) :
    out = H.of h m := by
  subst hn
  have := hs.hash hc hf
  simpa using this

theorem HashSys.Sound.digest {sys : HashSys} {H : HashFns} (hs : sys.Sound H) {h : HashId} {u : sys.Ctx}
    {input out : Bytes} {n : Nat} (hn : h.size = n) (hd : sys.digest u h n input = some out) : out = H.of h input := by
  subst hn
  obtain ⟨c, hc, h1⟩ := Option.bind_eq_some_iff.mp hd
  obtain ⟨r, hr, he⟩ := Option.bind_eq_some_iff.mp h1
  obtain rfl := Option.some.inj he
  exact hs.hash (c' := r.1) (out := r.2) (.init hc) hr

theorem blake2bId_size (n : Nat) (hn : n ≤ 64) : (blake2bId n).size = n := by
  show (UInt32.ofNat (n * 8)).toNat / 8 = n
  rw [UInt32.toNat_ofNat_of_lt' (by show n * 8 < 4294967296; omega)]
  omega

/-! ### C77 -/

/-- C77: a digest made in one go is the function of its input, for SHA-256, SHA-512 and BLAKE2b with up to 64 bytes of
output (the app uses 20 and 32); the memory it is made in does not matter. -/
theorem C77_digest (sys : HashSys) (H : HashFns) (hs : sys.Sound H) (u : sys.Ctx) (input out : Bytes) :
    (sys.sha256Digest u input = some out → out = H.of .sha256 input) ∧
    (sys.sha512Digest u input = some out → out = H.of .sha512 input) ∧
    (∀ n ≤ 64, sys.blake2bDigest u n input = some out → out = H.of (.blake2b (UInt32.ofNat (8 * n))) input) := by
  refine ⟨hs.digest rfl, hs.digest rfl, fun n hn h => ?_⟩
  have := hs.digest (blake2bId_size n hn) h
  rwa [show blake2bId n = .blake2b (UInt32.ofNat (8 * n)) by unfold blake2bId; rw [Nat.mul_comm]] at this

/-- C77: the checksum of pieces is the start of the double SHA-256 of all of them, one after the other. -/
theorem C77_checksum (sys : HashSys) (H : HashFns) (hs : sys.Sound H) (u : sys.Ctx) (pieces : List Bytes)
    (out : Bytes) (h : sys.sha256x2 u pieces = some out) :
    out = (H.of .sha256 (H.of .sha256 pieces.flatten)).take 4 := by
  obtain ⟨c0, h0, h⟩ := Option.bind_eq_some_iff.mp h
  obtain ⟨c1, h1, h⟩ := Option.bind_eq_some_iff.mp h
  obtain ⟨⟨c2, d⟩, h2, h⟩ := Option.bind_eq_some_iff.mp h
  obtain ⟨c3, h3, h⟩ := Option.bind_eq_some_iff.mp h
  obtain ⟨c4, h4, h⟩ := Option.bind_eq_some_iff.mp h
  obtain ⟨d', h5, h⟩ := Option.bind_eq_some_iff.mp h
  obtain rfl := Option.some.inj h
  have hd := hs.finalizeDirty rfl ((HashSys.Fed.init h0).updates h1) h2
  have hd' := hs.finalize rfl ((HashSys.Fed.init (u := c2) h3).update h4) h5
  rw [hd', hd]
  simp

/-- The bytes of a public key that are hashed: the compressed point for the curves of ECDSA (2 or 3 for an even or odd Y,
then X), the key without its first byte for ed25519. -/
inductive HashedForm : Curve → Bytes → Bytes → Prop
  | ed25519 {c : Curve} (hc : c = .ed25519 ∨ c = .bip32Ed25519) (b : UInt8) (k : Bytes) : HashedForm c (b :: k) k
  | secp {c : Curve} (hc : c = .secp256k1 ∨ c = .secp256r1) (b : UInt8) (x y : Bytes) (hx : x.length = 32)
      (hy : y.length = 32) : HashedForm c (b :: (x ++ y)) ((if beDec y % 2 = 0 then 2 else 3) :: x)

theorem beDec_parity (y : Bytes) (b : UInt8) : beDec (y ++ [b]) % 2 = b.toNat % 2 := by
  unfold beDec
  rw [List.foldl_append]
  simp only [List.foldl_cons, List.foldl_nil]
  omega

theorem parityByte (y : Bytes) (hy : y.length = 32) : (2 + (y.getD 31 0 &&& 1) : UInt8) =
    if beDec y % 2 = 0 then 2 else 3 := by
  obtain ⟨l, b, rfl⟩ : ∃ l b, y = l ++ [b] := by
    rcases List.eq_nil_or_concat y with rfl | ⟨l, b, rfl⟩
    · cases hy
    · exact ⟨l, b, by simp⟩
  have hl : l.length = 31 := by simpa using hy
  rw [beDec_parity, List.getD_eq_getElem?_getD, List.getElem?_append_right (by omega), hl]
  show (2 + (b &&& 1) : UInt8) = if b.toNat % 2 = 0 then 2 else 3
  revert b
  exact fun b _ => forall_u8 (P := fun b => (2 + (b &&& 1) : UInt8) = if b.toNat % 2 = 0 then 2 else 3)
    (by decide +kernel) b

/-- C77: the hash of a public key is the BLAKE2b hash, with 160 bits, of its form for hashing. -/
theorem C77_key_hash (sys : HashSys) (H : HashFns) (hs : sys.Sound H) (u : sys.Ctx) (c : Curve) (key form out : Bytes)
    (hf : HashedForm c key form) (h : sys.keyHash u c key = some out) : out = H.of (.blake2b 160) form := by
  obtain ⟨c0, h0, h⟩ := Option.bind_eq_some_iff.mp h
  obtain ⟨c1, h1, h⟩ := Option.bind_eq_some_iff.mp h
  have fin : ∀ {m}, sys.Fed (blake2bId 20) c1 m → out = H.of (.blake2b 160) m := fun hc => hs.finalize rfl hc h
  have fed : sys.Fed (blake2bId 20) c1 form := by
    cases hf with
    | ed25519 hc b =>
      have hu : sys.update c0 form = some c1 := by rcases hc with rfl | rfl <;> exact h1
      exact (HashSys.Fed.init h0).update hu
    | secp hc b x y hx hy =>
      have hu : (sys.update c0 [2 + ((b :: (x ++ y)).getD 64 0 &&& 1)]).bind
          (fun c => sys.update c (((b :: (x ++ y)).drop 1).take 32)) = some c1 := by rcases hc with rfl | rfl <;> exact h1
      obtain ⟨c2, h2, h3⟩ := Option.bind_eq_some_iff.mp hu
      have hg : (b :: (x ++ y)).getD 64 0 = y.getD 31 0 := by
        rw [List.getD_cons_succ, List.getD_eq_getElem?_getD, List.getElem?_append_right (by omega), hx,
          List.getD_eq_getElem?_getD]
      have ht : ((b :: (x ++ y)).drop 1).take 32 = x := by simp [← hx]
      rw [hg, parityByte y hy] at h2
      rw [ht] at h3
      have := ((HashSys.Fed.init h0).update h2).update h3
      simpa using this
  exact fin fed

/-- C77: an HMAC is the function of its key and its input. -/
theorem C77_hmac (sys : HashSys) (H : HashFns) (hs : sys.Sound H) (u : sys.Ctx) (key input out : Bytes)
    (h : sys.doHmac u key input = some out) : out = H.mac key input := by
  obtain ⟨c0, h0, h⟩ := Option.bind_eq_some_iff.mp h
  obtain ⟨⟨c1, o⟩, h1, h⟩ := Option.bind_eq_some_iff.mp h
  obtain ⟨r, h2, h⟩ := Option.bind_eq_some_iff.mp h
  obtain rfl := Option.some.inj h
  have := hs.hmac (c' := r.1) (out := r.2) ((HashSys.Keyed.init h0).more h1) h2
  simpa using this

/-! ### The functions of the device model -/

/-- The hashes of `cr` are those of the functions `H`; a call may fail at any time. -/
structure Crypto.HashesWith (cr : Crypto) (H : HashFns) : Prop where
  sha256 : ∀ {m d}, cr.sha256 m = some d → d = H.of .sha256 m
  sha512 : ∀ {m d}, cr.sha512 m = some d → d = H.of .sha512 m
  blake2b : ∀ {n m d}, n ≤ 64 → cr.blake2b n m = some d → d = H.of (.blake2b (UInt32.ofNat (8 * n))) m
  hmac : ∀ {k m d}, cr.hmac k m = some d → d = H.mac k m

/-- The cryptography of a device whose hashes are made by the calls of `sys`. -/
def HashSys.crypto (sys : HashSys) (u : sys.Ctx) (keys : Crypto) : Crypto :=
  { keys with
    sha256 := sys.sha256Digest u
    sha512 := sys.sha512Digest u
    blake2b := sys.blake2bDigest u
    hmac := sys.doHmac u }

theorem HashSys.Sound.hashesWith {sys : HashSys} {H : HashFns} (hs : sys.Sound H) (u : sys.Ctx) (keys : Crypto) :
    (sys.crypto u keys).HashesWith H where
  sha256 h := (C77_digest sys H hs u _ _).1 h
  sha512 h := (C77_digest sys H hs u _ _).2.1 h
  blake2b hn h := (C77_digest sys H hs u _ _).2.2 _ hn h
  hmac h := C77_hmac sys H hs u _ _ _ h

/-- C77: the checksums, key hashes and HMACs of the device model are those of the calls, whenever neither fails; the
device may use other memory for its contexts at every call. -/
theorem C77_device (sys : HashSys) (H : HashFns) (hs : sys.Sound H) (u : sys.Ctx) (cr : Crypto) (hc : cr.HashesWith H) :
    (∀ pieces x y, sys.sha256x2 u pieces = some x → Tezos.sha256x2 cr pieces = some y → x = y) ∧
    (∀ c key x y, key.length = (match c with | .ed25519 | .bip32Ed25519 => 33 | .secp256k1 | .secp256r1 => 65) →
      sys.keyHash u c key = some x → Tezos.keyHash cr c key = some y → x = y) ∧
    (∀ key m x y, sys.doHmac u key m = some x → cr.hmac key m = some y → x = y) := by
  refine ⟨fun pieces x y hx hy => ?_, fun c key x y hk hx hy => ?_, fun key m x y hx hy => ?_⟩
  · rw [C77_checksum sys H hs u pieces x hx]
    obtain ⟨d1, h1, hy⟩ := Option.bind_eq_some_iff.mp hy
    obtain ⟨d2, h2, hy⟩ := Option.bind_eq_some_iff.mp hy
    obtain rfl := Option.some.inj hy
    rw [← hc.sha256 h1, ← hc.sha256 h2]
  · cases key with
    | nil => cases c <;> cases hk
    | cons b k =>
      have ed : c = .ed25519 ∨ c = .bip32Ed25519 → x = y := by
        intro hce
        rw [C77_key_hash sys H hs u c _ _ x (.ed25519 hce b k) hx]
        have hy' : cr.blake2b 20 k = some y := by rcases hce with rfl | rfl <;> exact hy
        exact (hc.blake2b (by decide) hy').symm
      have secp : c = .secp256k1 ∨ c = .secp256r1 → x = y := by
        intro hce
        have hl : k.length = 64 := by rcases hce with rfl | rfl <;> simpa using hk
        obtain ⟨a, a', rfl, ha, ha'⟩ : ∃ a a', k = a ++ a' ∧ a.length = 32 ∧ a'.length = 32 :=
          ⟨k.take 32, k.drop 32, (List.take_append_drop 32 k).symm, by simp [hl], by simp [hl]⟩
        rw [C77_key_hash sys H hs u c _ _ x (.secp hce b a a' ha ha') hx]
        have hy' : cr.blake2b 20 ((2 + ((b :: (a ++ a')).getD 64 0 &&& 1)) :: ((b :: (a ++ a')).drop 1).take 32) =
            some y := by rcases hce with rfl | rfl <;> exact hy
        have hg : (b :: (a ++ a')).getD 64 0 = a'.getD 31 0 := by
          rw [List.getD_cons_succ, List.getD_eq_getElem?_getD, List.getElem?_append_right (by omega), ha,
            List.getD_eq_getElem?_getD]
        have ht : ((b :: (a ++ a')).drop 1).take 32 = a := by simp [← ha]
        rw [hg, ht, parityByte a' ha'] at hy'
        exact (hc.blake2b (by decide) hy').symm
      cases c with
      | ed25519 => exact ed (.inl rfl)
      | bip32Ed25519 => exact ed (.inr rfl)
      | secp256k1 => exact secp (.inl rfl)
      | secp256r1 => exact secp (.inr rfl)
  · rw [C77_hmac sys H hs u key m x hx, hc.hmac hy]

/-- The bytes of an address: prefix, BLAKE2b hash with 160 bits of the key in its form for hashing, checksum. -/
def addressBytes (H : HashFns) (c : Curve) (form : Bytes) : Bytes :=
  let body := addressPrefix c ++ H.of (.blake2b 160) form
  body ++ (H.of .sha256 (H.of .sha256 body)).take 4

/-- C77, addresses: the text that the app gives for the address of a key is the base58 text of the prefix of its curve,
the hash of the key and the start of their double SHA-256. -/
theorem C77_address (cr : Crypto) (H : HashFns) (hc : cr.HashesWith H) (c : Curve) (key form t : Bytes)
    (hf : HashedForm c key form) (h : IsAddressOf cr c key t) : Spec.IsBase58 t (addressBytes H c form) := by
  obtain ⟨a, h1, d1, d2, h2, h3, h4⟩ := h
  have hform : hashedKey c key = form := by
    cases hf with
    | ed25519 hce b k => rcases hce with rfl | rfl <;> rfl
    | secp hce b x y hx hy =>
      have hg : (b :: (x ++ y)).getD 64 0 = y.getD 31 0 := by
        rw [List.getD_cons_succ, List.getD_eq_getElem?_getD, List.getElem?_append_right (by omega), hx,
          List.getD_eq_getElem?_getD]
      have hp : (y.getD 31 0).toNat % 2 = beDec y % 2 := by
        obtain ⟨l, z, rfl⟩ : ∃ l z, y = l ++ [z] := by
          rcases List.eq_nil_or_concat y with rfl | ⟨l, z, rfl⟩
          · cases hy
          · exact ⟨l, z, by simp⟩
        have hl : l.length = 31 := by simpa using hy
        rw [beDec_parity, List.getD_eq_getElem?_getD, List.getElem?_append_right (by omega), hl]
        rfl
      have ht : ((b :: (x ++ y)).drop 1).take 32 = x := by simp [← hx]
      rcases hce with rfl | rfl <;> (simp only [hashedKey]; rw [hg, hp, ht])
  rw [hform] at h1
  have e1 := hc.blake2b (by decide) h1
  have e2 := hc.sha256 (m := addressPrefix c ++ a) h2
  have e3 := hc.sha256 (m := d1) h3
  have e1' : a = H.of (.blake2b 160) form := e1
  unfold addressBytes
  simp only [← e1', ← e2, ← e3]
  simpa using h4

/-- C77, the addresses that the app computes (`Addr::new_into`, then `base58`): whatever is made of a key is this
text. -/
theorem C77_app_address (cr : Crypto) (H : HashFns) (hc : cr.HashesWith H) (hs : cr.Sized) (c : Curve)
    (key form t : Bytes) (hf : HashedForm c key form) (a : Addr) (ha : Addr.ofKey cr c key = some a)
    (ht : a.base58 = .ok t) : Spec.IsBase58 t (addressBytes H c form) := by
  obtain ⟨h1, h2⟩ := Addr.ofKey_spec ha
  obtain rfl : Tezos.base58 a.bytes = t := by
    have := (h2 hs).symm.trans ht
    exact Except.ok.inj this
  exact C77_address cr H hc c key form _ hf h1

/-! ### A concrete case -/

namespace Demo

/-- The memory of a context: fresh, fed with some bytes, or finished. -/
inductive Context where
  | fresh
  | fed (h : HashId) (m : Bytes)
  | keyed (key m : Bytes)
  | finished
  deriving DecidableEq

/-- Stand-ins for the functions. -/
def hashFns : HashFns where
  of h m := hash h.size m
  mac k m := hash 32 (k ++ m)

/-- A system that keeps its promises; a finished context must be initialized before it can be used again. -/
def hashSystem : HashSys where
  Ctx := Context
  init h _ := some (.fed h [])
  hash c mode x n :=
    match c with
    | .fed h m => if mode = 0 then some (.fed h (m ++ x), []) else if n < h.size then none
        else some (.finished, hashFns.of h (m ++ x))
    | _ => none
  hmacInit _ k := some (.keyed k [])
  hmac c mode x n :=
    match c with
    | .keyed k m => if mode = 32768 then some (.keyed k (m ++ x), []) else if n < 32 then none
        else some (.finished, hashFns.mac k (m ++ x))
    | _ => none

theorem hashSystem_fed {h : HashId} {c : hashSystem.Ctx} {m : Bytes} (hc : hashSystem.Fed h c m) :
    c = Context.fed h m := by
  induction hc with
  | init hi => exact (Option.some.inj hi).symm
  | more _ hx ih =>
    subst ih
    exact (congrArg Prod.fst (Option.some.inj hx)).symm

theorem hashSystem_keyed {k : Bytes} {c : hashSystem.Ctx} {m : Bytes} (hc : hashSystem.Keyed k c m) :
    c = Context.keyed k m := by
  induction hc with
  | init hi => exact (Option.some.inj hi).symm
  | more _ hx ih =>
    subst ih
    exact (congrArg Prod.fst (Option.some.inj hx)).symm

theorem hashSystem_sound : hashSystem.Sound hashFns where
  hash {h c m x c' out} hc hx := by
    obtain rfl := hashSystem_fed hc
    have e : hashSystem.hash (.fed h m) 1 x h.size = some (.finished, hashFns.of h (m ++ x)) := by
      simp [hashSystem]
    rw [e] at hx
    exact (congrArg Prod.snd (Option.some.inj hx)).symm
  hmac {k c m x c' out} hc hx := by
    obtain rfl := hashSystem_keyed hc
    exact (congrArg Prod.snd (Option.some.inj hx)).symm

/-- The checksum of two pieces, and the hash of a key whose Y is odd. -/
example : hashSystem.sha256x2 .fresh [[6, 161, 159], [1, 2, 3]] =
      some ((hash 32 (hash 32 [6, 161, 159, 1, 2, 3])).take 4) ∧
    hashSystem.keyHash .finished .secp256k1 (4 :: (List.replicate 32 7 ++ List.replicate 31 9 ++ [5])) =
      some (hash 20 (3 :: List.replicate 32 7)) ∧
    hashSystem.doHmac .fresh [1, 2] [3, 4, 5] = some (hash 32 [1, 2, 3, 4, 5]) := by
  decide +kernel

/-- The cryptography of the other examples hashes with the same functions. -/
theorem crypto_hashesWith : crypto.HashesWith hashFns where
  sha256 h := (Option.some.inj h).symm
  sha512 h := (Option.some.inj h).symm
  blake2b {n m d} hn h := by
    have hi : HashId.blake2b (UInt32.ofNat (8 * n)) = blake2bId n := by unfold blake2bId; rw [Nat.mul_comm]
    rw [hi]
    show d = hash (blake2bId n).size m
    rw [blake2bId_size n hn]
    exact (Option.some.inj h).symm
  hmac h := (Option.some.inj h).symm

/-- A key whose Y is odd has an address, with 36 characters. -/
example : ((Addr.ofKey crypto .secp256k1 (4 :: (List.replicate 32 7 ++ List.replicate 31 9 ++ [5]))).map fun a =>
    (a.base58.toOption.map List.length)) = some (some 36) := by
  decide +kernel

end Demo
end Tezos
