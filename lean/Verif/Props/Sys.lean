import Verif.Sys
import Verif.Props.ClientCalls
/-
C69 to C72: keys and signatures down to the calls of the operating system.
-/
namespace Tezos
open Spec

/-! ### Which key -/

/-- The node of the seed that belongs to a curve of the app and a path: the mode of derivation (SLIP-10 for the Edwards
curve, BIP 32 otherwise), the curve of the system and the path. -/
def nodeOf (c : Curve) (p : Path) : UInt8 × UInt8 × Path :=
  match c with
  | .ed25519 => (1, 0x71, p)
  | .bip32Ed25519 => (0, 0x71, p)
  | .secp256k1 => (0, 0x21, p)
  | .secp256r1 => (0, 0x22, p)

theorem Curve.toSecret_node (c : Curve) (p : Path) :
    ((c.toSecret p).mode.toByte, (c.toSecret p).curve.toByte, (c.toSecret p).path) = nodeOf c p := by
  cases c <;> rfl

theorem SecretKey.generate_node (sys : Sys) (c : Curve) (p : Path) :
    (c.toSecret p).generate sys =
      (sys.derive (nodeOf c p).1 (nodeOf c p).2.1 (nodeOf c p).2.2).bind fun n =>
        sys.initKey (nodeOf c p).2.1 (n.take 32) := by
  cases c <;> rfl

/-- C69: the public key and the signatures of a curve and a path come from one node of the seed: the rest of the seed
has no part in them. -/
theorem C69_one_node (sys sys' : Sys) (c : Curve) (p : Path)
    (hsame : { sys' with derive := sys.derive } = sys)
    (hnode : sys'.derive (nodeOf c p).1 (nodeOf c p).2.1 (nodeOf c p).2.2 =
      sys.derive (nodeOf c p).1 (nodeOf c p).2.1 (nodeOf c p).2.2) (data : Bytes) :
    sys'.publicKey c p = sys.publicKey c p ∧ sys'.sign c p data = sys.sign c p data := by
  have hg : (c.toSecret p).generate sys' = (c.toSecret p).generate sys := by
    rw [SecretKey.generate_node, SecretKey.generate_node, hnode, ← hsame]
  constructor
  · simp only [Sys.publicKey, SecretKey.public, hg]
    rw [← hsame]
    rfl
  · simp only [Sys.sign, SecretKey.sign, SecretKey.ecdsa, SecretKey.eddsa, hg]
    rw [← hsame]

/-- C69: different curves or paths have different nodes. -/
theorem C69_distinct_nodes (c c' : Curve) (p p' : Path) (h : nodeOf c p = nodeOf c' p') : c = c' ∧ p = p' := by
  cases c <;> cases c' <;> simp [nodeOf] at h ⊢ <;> exact h

/-! ### What the system promises -/

/-- The promises of the system, with `Verifies curve key data signature` for the check of a signature.
* A point takes 65 bytes; compressing it leaves the size of the buffer.
* A signature of either kind fits the room given; that of ECDSA is a DER sequence, that of EdDSA has 64 bytes.
* A signature by a private key verifies under the point of this key (the compressed point, for EdDSA).
* The parameters of the Edwards curve have 32 bytes. -/
structure Sys.Sound (sys : Sys) (Verifies : UInt8 → Bytes → Bytes → Bytes → Prop) : Prop where
  point : ∀ {c k w}, sys.publicPoint c k = some w → w.length = 65
  compressed : ∀ {c w w'}, sys.compress c w = some w' → w'.length = w.length
  ecdsaShape : ∀ {k d n s i}, sys.ecdsa k 3 d n = some (s, i) → s.length ≤ n ∧ ∃ rest, s = 0x30 :: rest
  eddsaShape : ∀ {k d n s}, sys.eddsa k 5 d n = some s → s.length = 64
  ecdsa : ∀ {c secret k w d n s i}, c = 0x21 ∨ c = 0x22 → sys.initKey c secret = some k →
    sys.publicPoint c k = some w → sys.ecdsa k 3 d n = some (s, i) → Verifies c w d s
  eddsa : ∀ {secret k w w' d n s}, sys.initKey 0x71 secret = some k → sys.publicPoint 0x71 k = some w →
    sys.compress 0x71 w = some w' → sys.eddsa k 5 d n = some s → Verifies 0x71 (w'.take 33) d s
  length : ∀ {n}, sys.domainLength 0x71 = some n → n = 32

theorem take_written (buffer data : Bytes) : (written buffer data).take data.length = data := by
  simp [written]

/-- What signing on the curves of ECDSA comes to. -/
theorem Sys.sign_secp (sys : Sys) (c : Curve) (hc : c = .secp256k1 ∨ c = .secp256r1) (p : Path) (data s : Bytes)
    (h : sys.sign c p data = some s) :
    ∃ k sig info, (c.toSecret p).generate sys = some k ∧ sys.ecdsa k 3 data 72 = some (sig, info) ∧
      (∀ b rest, sig = b :: rest → s = (if info = 1 then b ||| 0x01 else b) :: rest) := by
  have hw : (c.toSecret p).curve.isWeierstrass = true := by rcases hc with rfl | rfl <;> rfl
  have hr : signatureRoom (c.toSecret p).curve signatureBuffer.length = 72 := by rcases hc with rfl | rfl <;> rfl
  simp only [Sys.sign, SecretKey.sign, SecretKey.ecdsa, if_pos hw, hr] at h
  cases hk : (c.toSecret p).generate sys with
  | none => simp [hk] at h
  | some k =>
    cases he : sys.ecdsa k 3 data 72 with
    | none => simp [hk, he] at h
    | some x =>
      obtain ⟨sig, info⟩ := x
      refine ⟨k, sig, info, rfl, he, ?_⟩
      rintro b rest rfl
      have ht := take_written signatureBuffer (b :: rest)
      by_cases hi : info = 1 <;> simp [hk, he, hi, written] at h ht ⊢ <;> exact h.symm

/-- What signing on the Edwards curve comes to. -/
theorem Sys.sign_ed (sys : Sys) (c : Curve) (hc : c = .ed25519 ∨ c = .bip32Ed25519) (p : Path) (data s : Bytes)
    (h : sys.sign c p data = some s) :
    ∃ k sig n, (c.toSecret p).generate sys = some k ∧ sys.eddsa k 5 data 72 = some sig ∧
      sys.domainLength 0x71 = some n ∧ s = (written signatureBuffer sig).take (n * 2) := by
  have hw : (c.toSecret p).curve.isWeierstrass = false := by rcases hc with rfl | rfl <;> rfl
  have he' : (c.toSecret p).curve.isTwistedEdwards = true := by rcases hc with rfl | rfl <;> rfl
  have hr : signatureRoom (c.toSecret p).curve signatureBuffer.length = 72 := by rcases hc with rfl | rfl <;> rfl
  have hb : (c.toSecret p).curve.toByte = 0x71 := by rcases hc with rfl | rfl <;> rfl
  simp only [Sys.sign, SecretKey.sign, SecretKey.eddsa, hw, he', hr, hb] at h
  cases hk : (c.toSecret p).generate sys with
  | none => simp [hk] at h
  | some k =>
    cases he : sys.eddsa k 5 data 72 with
    | none => simp [hk, he] at h
    | some sig =>
      cases hd : sys.domainLength 0x71 with
      | none => simp [hk, hd] at h
      | some n =>
        simp [hk, he, hd] at h
        exact ⟨k, sig, n, rfl, he, rfl, h.symm⟩

theorem Sys.publicKey_some (sys : Sys) (c : Curve) (p : Path) (key : Bytes) (h : sys.publicKey c p = some key) :
    ∃ k w, (c.toSecret p).generate sys = some k ∧ sys.publicPoint (nodeOf c p).2.1 k = some w ∧
      ((c = .secp256k1 ∨ c = .secp256r1) ∧ key = w ∨
       (c = .ed25519 ∨ c = .bip32Ed25519) ∧ ∃ w', sys.compress 0x71 w = some w' ∧ key = w'.take 33) := by
  simp only [Sys.publicKey, SecretKey.public] at h
  cases hk : (c.toSecret p).generate sys with
  | none => simp [hk] at h
  | some k =>
    have hb : (c.toSecret p).curve.toByte = (nodeOf c p).2.1 := by cases c <;> rfl
    rw [hb] at h
    cases hw : sys.publicPoint (nodeOf c p).2.1 k with
    | none => simp [hk, hw] at h
    | some w =>
      refine ⟨k, w, rfl, hw, ?_⟩
      simp only [hk, hw, Option.bind_eq_bind, Option.bind_some] at h
      cases c
      case secp256k1 => left; simp [compressKey, Curve.toSys] at h; exact ⟨.inl rfl, h.symm⟩
      case secp256r1 => left; simp [compressKey, Curve.toSys] at h; exact ⟨.inr rfl, h.symm⟩
      all_goals
        right
        simp only [compressKey, Curve.toSys, if_true, Option.map_eq_some_iff] at h
        obtain ⟨w', h1, h2⟩ := h
        exact ⟨by simp, w', h1, h2.symm⟩

/-- C70: the sizes that the rest of the app relies on. -/
theorem C70_sizes (sys : Sys) (V) (hs : sys.Sound V) (c : Curve) (p : Path) :
    (∀ key, sys.publicKey c p = some key →
      key.length = (match c with | .ed25519 | .bip32Ed25519 => 33 | .secp256k1 | .secp256r1 => 65)) ∧
    (∀ d s, sys.sign c p d = some s →
      match c with | .ed25519 | .bip32Ed25519 => s.length = 64 | .secp256k1 | .secp256r1 => s.length ≤ 72) := by
  constructor
  · intro key h
    obtain ⟨k, w, -, hw, ⟨hc, rfl⟩ | ⟨hc, w', h', rfl⟩⟩ := sys.publicKey_some c p key h
    · rcases hc with rfl | rfl <;> exact hs.point hw
    · have := hs.compressed h'
      have := hs.point hw
      rcases hc with rfl | rfl <;> simp <;> omega
  · intro d s h
    have ed : (c = .ed25519 ∨ c = .bip32Ed25519) → s.length = 64 := by
      intro hc
      obtain ⟨k, sig, n, -, he, hn, rfl⟩ := sys.sign_ed c hc p d s h
      have := hs.length hn
      have := hs.eddsaShape he
      subst n
      simp [written, signatureBuffer]
      omega
    have secp : (c = .secp256k1 ∨ c = .secp256r1) → s.length ≤ 72 := by
      intro hc
      obtain ⟨k, sig, i, -, he, h'⟩ := sys.sign_secp c hc p d s h
      obtain ⟨h1, rest, rfl⟩ := hs.ecdsaShape he
      rw [h' _ _ rfl]
      simpa using h1
    cases c
    · exact ed (.inl rfl)
    all_goals first | exact secp (by simp) | exact ed (by simp)

/-- A signature without the mark of the parity: on the curves of ECDSA the first byte is that of a DER sequence. -/
def unmarked (c : Curve) (s : Bytes) : Bytes :=
  match c with
  | .ed25519 | .bip32Ed25519 => s
  | .secp256k1 | .secp256r1 => 0x30 :: s.tail

/-- C70: a signature verifies under the public key that the app gives for the same curve and path, once the mark of the
parity is taken off, and the mark is all there is to take off. -/
theorem C70_verifies (sys : Sys) (V) (hs : sys.Sound V) (c : Curve) (p : Path) (key d s : Bytes)
    (hk : sys.publicKey c p = some key) (h : sys.sign c p d = some s) :
    V (nodeOf c p).2.1 key d (unmarked c s) ∧
    (s = unmarked c s ∨ (c = .secp256k1 ∨ c = .secp256r1) ∧ s = 0x31 :: (unmarked c s).tail) := by
  obtain ⟨k, w, hg, hw, ⟨hc, rfl⟩ | ⟨hc, w', h', rfl⟩⟩ := sys.publicKey_some c p key hk
  · obtain ⟨k', sig, i, hg', he, h2⟩ := sys.sign_secp c hc p d s h
    obtain rfl : k = k' := by simpa [hg] using hg'
    obtain ⟨-, rest, rfl⟩ := hs.ecdsaShape he
    have h3 := h2 _ _ rfl
    rw [SecretKey.generate_node] at hg
    obtain ⟨n, -, hi⟩ := Option.bind_eq_some_iff.mp hg
    have hv := hs.ecdsa (by rcases hc with rfl | rfl <;> simp [nodeOf]) hi hw he
    have hu : unmarked c s = 0x30 :: rest := by rcases hc with rfl | rfl <;> simp [unmarked, h3]
    rw [hu]
    refine ⟨hv, ?_⟩
    by_cases h1 : i = 1
    · exact .inr ⟨hc, by simp only [h3, h1, if_true]; rfl⟩
    · exact .inl (by simp [h3, h1])
  · obtain ⟨k', sig, n, hg', he, hn, rfl⟩ := sys.sign_ed c hc p d s h
    obtain rfl : k = k' := by simpa [hg] using hg'
    rw [SecretKey.generate_node] at hg
    obtain ⟨nd, -, hi⟩ := Option.bind_eq_some_iff.mp hg
    have hb : (nodeOf c p).2.1 = 0x71 := by rcases hc with rfl | rfl <;> rfl
    rw [hb] at hi hw ⊢
    have hl := hs.eddsaShape he
    obtain rfl := hs.length hn
    have hu : (written signatureBuffer sig).take (32 * 2) = sig := by
      have := take_written signatureBuffer sig
      rwa [hl] at this
    have hm : ∀ x, unmarked c x = x := by rcases hc with rfl | rfl <;> exact fun _ => rfl
    rw [hu, hm]
    exact ⟨hs.eddsa hi hw h' he, .inl rfl⟩

/-- The keys and signatures of `cr` are those of the system; a call may fail at any time. -/
def Crypto.Uses (cr : Crypto) (sys : Sys) : Prop :=
  (∀ c p k, cr.publicKey c p = some k → sys.publicKey c p = some k) ∧
  (∀ c p d s, cr.sign c p d = some s → sys.sign c p d = some s)

/-- C70, through the client: a signature that the library returns for a curve and a path verifies, as a signature of the
returned hash, under the key that it returns for this curve and path at any other time. -/
theorem C70_client (cfg : Config) (new : NewDevice) (hu : new.upload.length = uploadCapacity) (es : List (Env × Event))
    (hg : ∀ e ∈ es, Good e.1 e.2) (hcr : ∀ e ∈ es, e.1.cr.Sized) (sys : Sys) (V) (hs : sys.Sound V)
    (huse : ∀ e ∈ es, e.1.cr.Uses sys) (js : Js) (hjs : js.ReadsDecimal) (path : Bytes) (cs : List Component)
    (hcs : IsPathText path cs) (curve : UInt8)
    (past t rest : List Moment) (h : (Dev.factory new).trace cfg es = past ++ (t ++ rest))
    (message : Bytes) (b : UInt8) (call : Client SignResponse) (hcall : SigningRequest js path curve message b call)
    (r : SignResponse) (ht : Talk call t r) (hr : r.returnCode = 0x9000)
    (past' t' rest' : List Moment) (h' : (Dev.factory new).trace cfg es = past' ++ (t' ++ rest'))
    (call' : Client (Response (Bytes × Bytes))) (hcall' : getAddress js false path curve = some call')
    (r' : Response (Bytes × Bytes)) (ht' : Talk call' t' r') (hr' : r'.returnCode = 0x9000) :
    ∃ c digest s key text, Curve.ofByte curve = some c ∧ r.body = some (digest, s) ∧
      r'.body = some (key, text) ∧
      (∃ m ∈ t, m.env.cr.blake2b 32 (b :: message) = some digest) ∧
      V (nodeOf c (cs.map Component.bits)).2.1 key digest (unmarked c s) := by
  have henv : ∀ m ∈ (Dev.factory new).trace cfg es, m.env.cr.Uses sys := by
    intro m hm
    obtain ⟨a, a', ha⟩ := List.append_of_mem hm
    obtain ⟨ea, eb, rfl, -⟩ := Dev.trace_split ha
    exact huse (m.env, m.ev) (by simp)
  obtain ⟨m', hm', c, key, text, hc, hkey, -, hb'⟩ :=
    C65_address cfg _ es hcr past' t' rest' h' js hjs path cs hcs curve call' hcall' r' ht' hr'
  rcases C62_signing cfg new hu es hg hcr past t rest h js hjs path cs hcs curve message b call hcall r ht with
    ⟨hn, -⟩ | ⟨-, x, -, -, hxc, hxp, hd, ⟨m, hm, hsig⟩, hb⟩
  · exact absurd hr hn
  · obtain rfl : c = x.curve := Option.some.inj (hc.symm.trans hxc)
    have hk := (henv m' (by rw [h']; simp [hm'])).1 _ _ _ hkey
    have hs' := (henv m (by rw [h]; simp [hm])).2 _ _ _ _ hsig
    rw [hxp] at hs'
    exact ⟨_, x.digest, x.sig, key, text, hc, hb, hb', hd, (C70_verifies sys V hs _ _ key _ _ hk hs').1⟩

/-! ### The mark of the parity -/

/-- C71 (partial): on the curves of ECDSA the lowest bit of a signature tells whether the Y of its point was odd, if the
system reports nothing else about this point. Missing: the case in which it also reports that the X exceeds the order of
the curve, see `C71_parity_lost`. -/
theorem C71_parity_partial (sys : Sys) (V) (hs : sys.Sound V) (c : Curve) (hc : c = .secp256k1 ∨ c = .secp256r1)
    (p : Path) (d s : Bytes) (h : sys.sign c p d = some s) :
    ∃ node k sig info, sys.derive (nodeOf c p).1 (nodeOf c p).2.1 p = some node ∧
      sys.initKey (nodeOf c p).2.1 (node.take 32) = some k ∧ sys.ecdsa k 3 d 72 = some (sig, info) ∧
      s.tail = sig.tail ∧
      (info.toNat < 2 → s.head? = some (if info.toNat % 2 = 1 then 0x31 else 0x30)) := by
  obtain ⟨k, sig, info, hg, he, h2⟩ := sys.sign_secp c hc p d s h
  rw [SecretKey.generate_node] at hg
  obtain ⟨n, hn, hi⟩ := Option.bind_eq_some_iff.mp hg
  obtain ⟨-, rest, rfl⟩ := hs.ecdsaShape he
  have h3 := h2 _ _ rfl
  refine ⟨n, k, _, info, ?_, hi, he, by simp [h3], fun hlt => ?_⟩
  · rcases hc with rfl | rfl <;> exact hn
  · have hcase : info = 0 ∨ info = 1 := by
      rcases (show info.toNat = 0 ∨ info.toNat = 1 by omega) with h0 | h0
      · exact .inl (UInt32.toNat_inj.mp h0)
      · exact .inr (UInt32.toNat_inj.mp h0)
    rcases hcase with rfl | rfl <;> rw [h3] <;> rfl

namespace Demo

/-- The bytes of a point. -/
def pointOf (k : RawKey) : Bytes := 0x04 :: (k.secret ++ List.replicate 64 0).take 64

/-- A stand-in for the system: keys are their secrets, signatures carry the start of the key and the data; `info` is
given. -/
def system (info : UInt32) : Sys where
  derive m c p := some ((m :: c :: p.flatMap be32 ++ List.replicate 64 0).take 64)
  initKey c s := some ⟨c, s⟩
  publicPoint _ k := some (pointOf k)
  compress _ w := some w
  ecdsa k _ d n := if n = 0 then none else some (0x30 :: ((pointOf k).take 17 ++ d).take (n - 1), info)
  eddsa k _ d _ := some (((pointOf k).take 17 ++ d ++ List.replicate 64 0).take 64)
  domainLength _ := some 32

/-- The check of its signatures. -/
def checks (c : UInt8) (key data s : Bytes) : Prop :=
  if c = 0x71 then s = (key.take 17 ++ data ++ List.replicate 64 0).take 64
  else ∃ n, s = 0x30 :: (key.take 17 ++ data).take n

theorem system_sound (info : UInt32) : (system info).Sound checks where
  point := by
    rintro c k w h
    obtain rfl := Option.some.inj h
    simp [pointOf]
  compressed := by
    rintro c w w' h
    obtain rfl := Option.some.inj h
    rfl
  ecdsaShape := by
    rintro k d n s i h
    simp only [system] at h
    split at h
    · cases h
    · simp only [Option.some.injEq, Prod.mk.injEq] at h
      obtain ⟨rfl, -⟩ := h
      refine ⟨?_, _, rfl⟩
      rw [List.length_cons, List.length_take]
      omega
  eddsaShape := by
    rintro k d n s h
    obtain rfl := Option.some.inj h
    rw [List.length_take, List.length_append, List.length_replicate]
    omega
  ecdsa := by
    rintro c secret k w d n s i hc _ hw h
    obtain rfl := Option.some.inj hw
    simp only [system] at h
    split at h
    · cases h
    · simp only [Option.some.injEq, Prod.mk.injEq] at h
      rw [checks, if_neg (by rcases hc with rfl | rfl <;> decide)]
      exact ⟨_, h.1.symm⟩
  eddsa := by
    rintro secret k w w' d n s _ hw hw' h
    obtain rfl := Option.some.inj hw
    obtain rfl := Option.some.inj hw'
    obtain rfl := Option.some.inj h
    simp [checks, List.take_take]
  length := by
    rintro n h
    exact (Option.some.inj h).symm

end Demo

/-- C71, negation: if the system reports both that Y was odd and that X exceeds the order, the signature does not tell
that Y was odd. -/
theorem C71_parity_lost : ∃ (sys : Sys) (V : _) (c : Curve) (p : Path) (d s node : Bytes) (k : RawKey) (sig : Bytes)
    (info : UInt32), sys.Sound V ∧ (c = .secp256k1 ∨ c = .secp256r1) ∧ sys.sign c p d = some s ∧
      sys.derive (nodeOf c p).1 (nodeOf c p).2.1 p = some node ∧
      sys.initKey (nodeOf c p).2.1 (node.take 32) = some k ∧ sys.ecdsa k 3 d 72 = some (sig, info) ∧
      info.toNat % 2 = 1 ∧ s.head? = some 0x30 :=
  ⟨Demo.system 3, Demo.checks, .secp256k1, [0x8000002c], [1, 2, 3], _, _, _, _, 3, Demo.system_sound 3, .inl rfl, rfl,
    rfl, rfl, rfl, by decide, by decide⟩

/-! ### Codes -/

/-- The curves of the system that share the code of another one. -/
def SharesCode (c : SysCurve) : Prop := c = .nistp256 ∨ c = .nistp384 ∨ c = .nistp521 ∨ c = .curve448

instance : DecidablePred SharesCode := fun c => by unfold SharesCode; infer_instance

/-- C72 (partial): a curve of the system comes back from its code. Missing: the aliases of the NIST curves, which come
back under their other name, and Curve448, see `C72_curve448`. -/
theorem C72_curve_code_partial (c : SysCurve) (h : ¬ SharesCode c) : SysCurve.ofByte c.toByte = some c := by
  revert h
  cases c <;> decide

/-- C72: the aliases of the NIST curves come back as the same curve. -/
theorem C72_aliases (c c' : SysCurve) (h : SysCurve.ofByte c.toByte = some c') (hc : c ≠ .curve448) :
    c'.domainLength = c.domainLength ∧ c'.isWeierstrass = c.isWeierstrass ∧
      c'.isTwistedEdwards = c.isTwistedEdwards ∧ c'.toByte = c.toByte := by
  revert c' hc
  cases c <;> intro c' h hc <;> first | exact absurd rfl hc | (obtain rfl := Option.some.inj h; decide)

/-- C72, negation: Curve448 has the code of Ed448, a curve of another kind and size; and its own code is never sent. -/
theorem C72_curve448 : SysCurve.ofByte SysCurve.curve448.toByte = some .ed448 ∧
    SysCurve.ed448.isTwistedEdwards ≠ SysCurve.curve448.isTwistedEdwards ∧
    SysCurve.ed448.domainLength ≠ SysCurve.curve448.domainLength ∧
    SysCurve.ofByte 130 = some .curve448 ∧ ∀ c : SysCurve, c.toByte ≠ 130 := by
  refine ⟨rfl, by decide, by decide, rfl, fun c => ?_⟩
  cases c <;> decide

/-- C72: a mode of derivation comes back from its code, and only codes of modes are taken. -/
theorem C72_mode_code (m : Mode) (b : UInt8) : Mode.ofByte b = some m ↔ b = m.toByte := by
  constructor
  · simp only [Mode.ofByte]
    cases m <;> (repeat' split) <;> simp_all [Mode.toByte]
  · rintro rfl
    cases m <;> rfl

/-- C72: every code of an error of the system comes back from the error. -/
theorem C72_error_code (raw : UInt32) : (SysError.ofCode raw).toCode = raw := by
  simp only [SysError.ofCode]
  split
  · next h => exact h.symm
  · rfl

/-- C72: a curve of the app comes back from that of the system up to the mode of derivation: the Edwards curve always
comes back as the one derived as in BIP 32, and no other curve changes. -/
theorem C72_app_curve (c : Curve) :
    Curve.ofSys c.toSys = some (if c = .ed25519 then .bip32Ed25519 else c) := by
  cases c <;> rfl

namespace Demo

/-- A case of `C69_one_node`: another seed that agrees on the node. -/
example : ∃ sys' : Sys, { sys' with derive := (system 0).derive } = system 0 ∧
    sys'.derive (nodeOf .ed25519 [1]).1 (nodeOf .ed25519 [1]).2.1 (nodeOf .ed25519 [1]).2.2 =
      (system 0).derive (nodeOf .ed25519 [1]).1 (nodeOf .ed25519 [1]).2.1 (nodeOf .ed25519 [1]).2.2 ∧
    sys'.publicKey .bip32Ed25519 [1] ≠ (system 0).publicKey .bip32Ed25519 [1] :=
  ⟨{ system 0 with derive := fun m c p => if m = 1 then (system 0).derive m c p else none }, rfl, rfl, by decide⟩

/-- The cryptography of the demo on top of the system. -/
def overSystem (info : UInt32) : Env :=
  { fine with cr := { crypto with publicKey := (system info).publicKey, sign := (system info).sign } }

theorem overSystem_uses (info : UInt32) : (overSystem info).cr.Uses (system info) :=
  ⟨fun _ _ _ h => h, fun _ _ _ _ h => h⟩

/-- An address is asked for, then an operation is signed. -/
def addressThenSign (curve : UInt8) : List (Env × Event) :=
  ([apdu 0x11 0 curve keyPath, apdu 0x12 0 curve keyPath, apdu 0x12 2 0 delegation] ++
    List.replicate 11 Event.right ++ [Event.both]).map (overSystem 1, ·)

set_option maxRecDepth 100000 in
set_option synthInstance.maxSize 1000 in
/-- The hypotheses of `C70_client`, on two curves; on the second the signature carries the mark. -/
example :
    ([0, 1] : List UInt8).map (fun c =>
      let t := (Dev.factory ⟨.small, List.replicate uploadCapacity 0⟩).trace walletApp (addressThenSign c)
      (((getAddress js false pathText c).bind fun x => play (t.take 1) (.inl x)).map (·.returnCode),
       (play (t.drop 1) (.inl (signOperation js pathText c (delegation.drop 1)))).map
        fun r => (r.returnCode, r.body.map fun b => (b.2.length, b.2.headD 0)))) =
    [(some 0x9000, some (0x9000, some (64, 0x04))), (some 0x9000, some (0x9000, some (50, 0x31)))] := by
  decide +kernel

end Demo

end Tezos
