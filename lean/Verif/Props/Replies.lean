import Verif.Props.Approvals
import Verif.Props.Display
/-
C45 and C53: what the replies of the signing and address commands contain.
-/
set_option linter.unusedSimpArgs false
namespace Tezos
open Spec

/-! ### C45 -/

/-- The signing instructions documented to return the hash in front of the signature. -/
def hashInstructions : List UInt8 := [0x0F, 0x12, 0xAF]

theorem command_hash {b : Build} {ins : UInt8} {h : Bool}
    (hc : command b ins = some (.sign h) ∨ command b ins = some (.bakerSign h)) :
    h = decide (ins ∈ hashInstructions) := by
  have : ∀ n : Fin 256, ∀ h : Bool, (command b (UInt8.ofNat n) = some (.sign h) ∨
      command b (UInt8.ofNat n) = some (.bakerSign h)) → h = decide (UInt8.ofNat n ∈ hashInstructions) := by
    cases b <;> decide +kernel
  exact forall_u8 (P := fun ins => ∀ h : Bool, (command b ins = some (.sign h) ∨
      command b ins = some (.bakerSign h)) → h = decide (ins ∈ hashInstructions)) this ins h hc

theorem sigReply_hash {h : Bool} {ins : UInt8} (hh : h = decide (ins ∈ hashInstructions)) (digest sig : Bytes) :
    sigReply h digest sig ++ statusWord .success =
      (if ins ∈ hashInstructions then digest else []) ++ sig ++ [0x90, 0x00] := by
  have e : statusWord .success = [0x90, 0x00] := by decide
  rw [e]
  subst hh
  unfold sigReply
  simp only [decide_eq_true_eq]

/-- The packet with instruction `ins` at `r` led to the answer at the later moment `m`: it is the same event, or it
opened the review approved at `m`. -/
inductive AnsweredAt (cfg : Config) (past : List Moment) (m : Moment) (r : Moment) : Prop where
  | atOnce (h : r = m)
  | approved (v : View) (a b : List Moment) (hp : past = a ++ r :: b) (ho : r.Opens cfg v)
      (hb : ∀ y ∈ b, y.st.view = some v ∧ ∀ w, ¬ y.Opens cfg w) (ha : Approves m.st m.ev v)

/-- C45: the reply that carries a signature consists of the digest of the message if the instruction is one of those
documented to return it, then the signature, then the status word; the digest is that of the uploaded message, and the
signature is one of this digest. -/
theorem C45_reply_layout (cfg : Config) (new : NewDevice) (es : List (Env × Event)) (past rest : List Moment) (m : Moment)
    (h : (Dev.factory new).trace cfg es = past ++ m :: rest) (x : SigRec) (hx : m.out.sig = some x) :
    ∃ r buf rx ins, AnsweredAt cfg past m r ∧ r.ev = .apdu buf rx ∧ buf[1]? = some ins ∧ ins ∈ signingIns cfg.build ∧
      m.out.reply = some ((if ins ∈ hashInstructions then x.digest else []) ++ x.sig ++ [0x90, 0x00]) ∧
      r.env.cr.blake2b 32 x.msg = some x.digest ∧ (r.env.cr.Sized → x.digest.length = 32) ∧
      m.env.cr.sign x.curve x.path x.digest = some x.sig := by
  obtain ⟨ea, eb, rfl, _, _, _, hout, _⟩ := Dev.trace_split h
  have hsig := hx
  rw [hout] at hsig
  have review : ∀ v hh, Approves m.st m.ev v → v.signs = some (x.digest, x.msg) →
      ((∃ p, v = .sign hh x.digest p x.msg) ∨ ∃ br op, v = .bakingSign hh x.digest br op x.msg) →
      m.out.reply = some (sigReply hh x.digest x.sig ++ statusWord .success) →
      ∃ r buf rx ins, AnsweredAt cfg past m r ∧ r.ev = .apdu buf rx ∧ buf[1]? = some ins ∧ ins ∈ signingIns cfg.build ∧
      m.out.reply = some ((if ins ∈ hashInstructions then x.digest else []) ++ x.sig ++ [0x90, 0x00]) ∧
      r.env.cr.blake2b 32 x.msg = some x.digest ∧ (r.env.cr.Sized → x.digest.length = 32) := by
    intro v hh ha hv hvv hr
    obtain ⟨a, m0, b, hpast, ho, hb⟩ := Dev.trace_view h rfl ha.view
    obtain ⟨buf, rx, c, p, u, hrec, hop, hp, hmem⟩ := ho.memory
    obtain ⟨acc, q2, first, ref, k, hacc, hcomp, hcv, hpath, hkey⟩ := hop.request hv
    obtain ⟨ins, hi, hc⟩ := hrec.cmd
    have hcmd : command cfg.build ins = some (.sign hh) ∨ command cfg.build ins = some (.bakerSign hh) := by
      rcases hkey with ⟨_, ⟨h', r', rfl, e⟩, _⟩ | ⟨_, ⟨h', b', o', rfl, e⟩, _⟩
      · rcases hvv with ⟨p, e'⟩ | ⟨br, op, e'⟩
        · rw [e'] at e; cases e; exact .inl hc
        · rw [e'] at e; cases e
      · rcases hvv with ⟨p, e'⟩ | ⟨br, op, e'⟩
        · rw [e'] at e; cases e
        · rw [e'] at e; cases e; exact .inr hc
    have hd : m0.env.cr.blake2b 32 x.msg = some x.digest := by
      have hh := hop.hashed
      cases v with
      | sign => cases hv; exact hh
      | bakingSign => cases hv; exact hh
      | _ => cases hv
    exact ⟨m0, buf, rx, ins, .approved v a b hpast ho hb ha, hrec.ev, hi, command_signing hcmd,
      by rw [hr, sigReply_hash (command_hash hcmd)], hd, fun hs => hs.blake2b hd⟩
  cases Dev.step_signed hsig with
  | review hh p ha hp hs hr hst =>
    obtain ⟨r, buf, rx, ins, h1, h2, h3, h4, h5, h6, h7⟩ := review _ hh ha rfl (.inl ⟨p, rfl⟩) (by rw [hout, hr])
    exact ⟨r, buf, rx, ins, h1, h2, h3, h4, h5, h6, h7, hs⟩
  | delegation hh br op ha hk hs hr hst =>
    obtain ⟨r, buf, rx, ins, h1, h2, h3, h4, h5, h6, h7⟩ :=
      review _ hh ha rfl (.inr ⟨br, op, rfl⟩) (by rw [hout, hr])
    exact ⟨r, buf, rx, ins, h1, h2, h3, h4, h5, h6, h7, hs⟩
  | consensus hh buf rx hrec u q2 first ref hu hcv hp hk hd hs hr b it hb hi =>
    obtain ⟨ins, hi, hc⟩ := hrec.cmd
    exact ⟨m, buf, rx, ins, .atOnce rfl, hrec.ev, hi, command_signing (.inr hc),
      by rw [hout, hr, sigReply_hash (command_hash (.inr hc))], hd, fun hs => hs.blake2b hd, hs⟩

/-! ### C53 -/

/-- The address prefix of a curve: tz1, tz2, tz3. -/
def addressPrefix : Curve → Bytes
  | .ed25519 | .bip32Ed25519 => [6, 161, 159]
  | .secp256k1 => [6, 161, 161]
  | .secp256r1 => [6, 161, 164]

/-- The form of a public key that is hashed: the bytes after the header, or the compressed point. -/
def hashedKey (c : Curve) (key : Bytes) : Bytes :=
  match c with
  | .ed25519 | .bip32Ed25519 => key.drop 1
  | .secp256k1 | .secp256r1 => (if (key.getD 64 0).toNat % 2 = 0 then 2 else 3) :: (key.drop 1).take 32

/-- `t` is the text of the address of a key: prefix, 20-byte hash and checksum in base58. -/
def IsAddressOf (cr : Crypto) (c : Curve) (key t : Bytes) : Prop :=
  ∃ h, cr.blake2b 20 (hashedKey c key) = some h ∧ IsBase58Check cr.hashes (addressPrefix c) h t

/-- The byte that stands for a curve in the commands. -/
def curveCode : Curve → UInt8
  | .ed25519 => 0
  | .secp256k1 => 1
  | .secp256r1 => 2
  | .bip32Ed25519 => 3

theorem curveCode_of {b : UInt8} {c : Curve} (h : Curve.ofByte b = some c) : b = curveCode c := by
  unfold Curve.ofByte at h
  split at h
  · cases h; assumption
  split at h
  · cases h; assumption
  split at h
  · cases h; assumption
  split at h
  · cases h; assumption
  · cases h

theorem keyHash_eq (cr : Crypto) (c : Curve) (key : Bytes) : keyHash cr c key = cr.blake2b 20 (hashedKey c key) := by
  have e : ∀ b : UInt8, 2 + (b &&& 1) = if b.toNat % 2 = 0 then 2 else 3 :=
    forall_u8 (by decide +kernel)
  cases c <;> simp only [keyHash, hashedKey, e]

theorem Addr.ofKey_spec {cr : Crypto} {c : Curve} {key : Bytes} {a : Addr} (h : Addr.ofKey cr c key = some a) :
    IsAddressOf cr c key (Tezos.base58 a.bytes) ∧ (cr.Sized → a.base58 = .ok (Tezos.base58 a.bytes)) := by
  unfold Addr.ofKey Addr.fromHash at h
  simp only [Option.bind_eq_bind, Option.bind_eq_some_iff, Option.pure_def, Option.some.injEq] at h
  obtain ⟨hh, e1, b, hb, rfl⟩ := h
  rw [keyHash_eq] at e1
  have hpre : c.hashPrefix = addressPrefix c := by cases c <;> rfl
  refine ⟨?_, fun hs => ?_⟩
  · obtain ⟨s, hs, rfl⟩ := checked_some.mp hb
    unfold sha256x2 at hs
    simp only [Option.bind_eq_bind, Option.bind_eq_some_iff, Option.pure_def, Option.some.injEq] at hs
    obtain ⟨d1, h1, d2, h2, rfl⟩ := hs
    rw [hpre] at h1 ⊢
    exact ⟨hh, e1, d1, d2, (by simpa using h1 : cr.sha256 (addressPrefix c ++ hh) = some d1), h2, base58_isBase58 _⟩
  · have hl := checked_length hs hb
    rw [hashPrefix_length, hs.blake2b e1] at hl
    exact base58_fits_address hl

theorem command_promptAddr {b : Build} {ins : UInt8} :
    (command b ins = some .promptAddr → ins = 0x03) ∧ (command b ins = some .getAddr → ins = 0x11) := by
  cases b
  · exact forall_u8 (P := fun ins => (command .baking ins = some .promptAddr → ins = 0x03) ∧
      (command .baking ins = some .getAddr → ins = 0x11)) (by decide +kernel) ins
  · exact forall_u8 (P := fun ins => (command .wallet ins = some .promptAddr → ins = 0x03) ∧
      (command .wallet ins = some .getAddr → ins = 0x11)) (by decide +kernel) ins

/-- C53: when the user approves an address display, this display was opened by the last request that opened one, the
reply is the public key of the curve and path in that request followed by the text of the address, and this text, which
is the one derived from the key, is the only item of the display from the request to the approval. -/
theorem C53_confirmed_key (cfg : Config) (new : NewDevice) (es : List (Env × Event)) (hs : ∀ e ∈ es, e.1.cr.Sized)
    (past rest : List Moment) (m : Moment) (h : (Dev.factory new).trace cfg es = past ++ m :: rest) (a : Addr)
    (key : Bytes) (w : Bool) (ha : Approves m.st m.ev (.addr a key w)) :
    ∃ p1 m0 b buf rx ins curve path t, past = p1 ++ m0 :: b ∧ (∀ y ∈ b, ∀ v, ¬ y.Opens cfg v) ∧
      m0.ev = .apdu buf rx ∧ buf[1]? = some ins ∧ (ins = 0x03 ∨ (ins = 0x11 ∧ buf.getD 2 0 ≠ 0)) ∧
      buf.getD 3 0 = curveCode curve ∧
      apduPayload buf = some (UInt8.ofNat path.length :: path.flatMap be32) ∧
      m0.env.cr.publicKey curve path = some key ∧ IsAddressOf m0.env.cr curve key t ∧
      m.out.reply = some (UInt8.ofNat key.length :: key ++ t ++ [0x90, 0x00]) ∧
      ∀ y ∈ b ++ [m], ∃ vw, y.st.viewer y.env = some vw ∧ vw.numItems = .ok 1 ∧ vw.item 0 = .ok ⟨ascii "Address", t⟩ := by
  obtain ⟨p1, m0, b, rfl, ho, hb⟩ := Dev.trace_view h rfl ha.view
  obtain ⟨buf, rx, c, p, u, hrec, hop, -⟩ := ho.ex
  have hs0 : m0.env.cr.Sized := by
    have ht : (Dev.factory new).trace cfg es = p1 ++ m0 :: (b ++ m :: rest) := by rw [h]; simp
    obtain ⟨ea, eb, rfl, _⟩ := Dev.trace_split ht
    exact hs (m0.env, m0.ev) (by simp)
  obtain ⟨ins, hi, hc⟩ := hrec.cmd
  cases hop with
  | addr hcmd hcv hpl hr hk haddr =>
    rename_i k pl
    obtain ⟨hspec, hok⟩ := Addr.ofKey_spec haddr
    refine ⟨p1, m0, b, buf, rx, ins, k.curve, k.path, base58 a.bytes, rfl, fun y hy => (hb y hy).2, hrec.ev, hi, ?_,
      curveCode_of hcv, ?_, hk, hspec, ?_, ?_⟩
    · rcases hcmd with rfl | ⟨rfl, h1⟩
      · exact .inl (command_promptAddr.1 hc)
      · refine .inr ⟨command_promptAddr.2 hc, fun h0 => ?_⟩
        rw [h0] at h1
        exact absurd h1 (by decide)
    · rw [hpl, (Path.read_ok.mp hr).2.2.2]
    · obtain ⟨ea, eb, rfl, _, _, _, hout, _⟩ := Dev.trace_split h
      rw [hout, (ha.step (cfg := cfg) m.env).2.2]
      simp only [View.accept, if_true, hok hs0]
      have e : statusWord .success = [0x90, 0x00] := by decide
      simp only [Dev.ok, Res.deliver, e, keyReply]
    · intro y hy
      have hyv : y.st.view = some (.addr a key true) := by
        rcases List.mem_append.mp hy with hy | hy
        · exact (hb y hy).1
        · rw [List.mem_singleton.mp hy]; exact ha.view
      refine ⟨View.viewer y.env.cr y.st.upl.buf (.addr a key true), by unfold Dev.viewer; rw [hyv]; rfl, rfl, ?_⟩
      simp only [View.viewer, if_true, hok hs0]
      rfl

namespace Demo

set_option maxRecDepth 100000 in
/-- The hypotheses of `C45_reply_layout` for an instruction with and one without the hash. -/
example :
    ((fresh.trace walletApp (signReview 0x04 delegation 11)).getLast?.map fun m =>
      (m.out.sig.map fun x => decide (m.out.reply = some (x.sig ++ [0x90, 0x00])))) = some (some true) ∧
    ((fresh.trace walletApp (signReview 0x0F delegation 11)).getLast?.map fun m =>
      (m.out.sig.map fun x => decide (m.out.reply = some (x.digest ++ x.sig ++ [0x90, 0x00])))) = some (some true) := by
  decide +kernel

set_option maxRecDepth 100000 in
/-- The hypotheses of `C53_confirmed_key`: an address is asked for and approved. -/
example :
    let es := ok [apdu 0x11 1 2 keyPath, .right, .right, .both]
    let t := fresh.trace bakingApp es
    (t.getLast?.map fun m => match approved m.st m.ev with | some (.addr ..) => true | _ => false) = some true ∧
    (t.getLast?.map fun m => (m.out.reply.map List.length)) = some (some (1 + 65 + 36 + 2)) := by
  decide +kernel

end Demo

end Tezos
