import Verif.Props.ClientCalls
/-
C67, C68: the calls of the client library that serve the protocol of the older app, the hash and the address the library
computes itself, and the texts it takes for paths. Much of this does not do what its names say; the theorems say what is
returned instead, for every conversation, and under which conditions it is right.
-/
namespace Tezos
open Spec

/-! ### What the library computes -/

/-- The functions of the JavaScript environment compute what the device computes, and base58. -/
structure Js.Like (js : Js) (cr : Crypto) : Prop where
  blake2b : ∀ {n m d}, cr.blake2b n m = some d → js.blake2b n m = d
  sha256 : ∀ {m d}, cr.sha256 m = some d → js.sha256 m = d
  bs58 : ∀ data, IsBase58 (js.bs58 data) data
  blakeSize : ∀ n m, (js.blake2b n m).length = n
  shaSize : ∀ m, (js.sha256 m).length = 32

/-- The text `publicKeyToAddress` makes of a prefix and the bytes it hashes. -/
def Js.address (js : Js) (pfx bytes : Bytes) : Bytes :=
  js.bs58 (pfx ++ js.blake2b 20 bytes ++ (js.sha256 (js.sha256 (pfx ++ js.blake2b 20 bytes))).take 4)

theorem Js.Like.address {js : Js} {cr : Crypto} (hl : js.Like cr) {c : Curve} {key t : Bytes}
    (h : IsAddressOf cr c key t) : js.address (addressPrefix c) (hashedKey c key) = t := by
  obtain ⟨a, h1, d1, d2, h2, h3, h4⟩ := h
  unfold Js.address
  rw [hl.blake2b h1, hl.sha256 h2, hl.sha256 h3]
  exact (IsBase58.unique (hl.bs58 _)).trans (IsBase58.unique h4).symm

theorem header_parity (b : UInt8) : 0x02 + (b &&& 0x01) = if b.toNat % 2 = 0 then (2 : UInt8) else 3 := by
  revert b
  exact forall_u8 (by decide +kernel)

/-- C67, the part that holds: `publicKeyToAddress` of a public key of the device gives its address. -/
theorem C67_address_of_key_partial (js : Js) (cr : Crypto) (hl : js.Like cr) (hs : cr.Sized) (curve : UInt8) (c : Curve)
    (hc : Curve.ofByte curve = some c) (path : Path) (key text : Bytes) (hk : cr.publicKey c path = some key)
    (ht : IsAddressOf cr c key text) : (publicKeyToAddress js key curve).map (·.1) = some text := by
  have hlen := hs.publicKey hk
  have ha := hl.address ht
  have hcases : (curve = 0 ∧ c = .ed25519) ∨ (curve = 1 ∧ c = .secp256k1) ∨ (curve = 2 ∧ c = .secp256r1) ∨
      (curve = 3 ∧ c = .bip32Ed25519) := by
    unfold Curve.ofByte at hc
    repeat' split at hc
    all_goals cases hc
    all_goals simp_all
  rcases hcases with ⟨rfl, rfl⟩ | ⟨rfl, rfl⟩ | ⟨rfl, rfl⟩ | ⟨rfl, rfl⟩
  · exact congrArg some ha
  · have h64 : 64 < key.length := by simp only at hlen; omega
    have e : key[64]? = some (key.getD 64 0) := by simp [h64]
    simp only [publicKeyToAddress, e]
    refine congrArg some (Eq.trans ?_ ha)
    simp only [hashedKey, header_parity]
    rfl
  · have h64 : 64 < key.length := by simp only at hlen; omega
    have e : key[64]? = some (key.getD 64 0) := by simp [h64]
    simp only [publicKeyToAddress, e]
    refine congrArg some (Eq.trans ?_ ha)
    simp only [hashedKey, header_parity]
    rfl
  · exact congrArg some ha

theorem letters_inj {d d' : Nat} {c : UInt8} (h : (ascii base58Letters)[d]? = some c)
    (h' : (ascii base58Letters)[d']? = some c) : d = d' := by
  have hn : (ascii base58Letters).Nodup := by rw [letters_eq]; decide
  obtain ⟨hl, e⟩ := List.getElem?_eq_some_iff.mp h
  obtain ⟨hl', e'⟩ := List.getElem?_eq_some_iff.mp h'
  exact (List.Nodup.getElem_inj_iff hn).mp (e.trans e'.symm)

theorem letters_map {ds ds' : List Nat} {t : Bytes} (h : t.map some = ds.map fun d => (ascii base58Letters)[d]?)
    (h' : t.map some = ds'.map fun d => (ascii base58Letters)[d]?) : ds = ds' := by
  induction t generalizing ds ds' with
  | nil =>
    rw [List.map_eq_nil_iff.mp h.symm, List.map_eq_nil_iff.mp h'.symm]
  | cons c t ih =>
    cases ds with
    | nil => cases h
    | cons d ds =>
      cases ds' with
      | nil => cases h'
      | cons d' ds' =>
        simp only [List.map_cons, List.cons.injEq] at h h'
        rw [letters_inj h.1.symm h'.1.symm, ih h.2 h'.2]

/-- The base58 text tells bytes of one length apart. -/
theorem IsBase58.data {t b b' : Bytes} (h : IsBase58 t b) (h' : IsBase58 t b') (hl : b.length = b'.length) : b = b' := by
  obtain ⟨ds, h1, h2, -⟩ := h
  obtain ⟨ds', h1', h2', -⟩ := h'
  have e := letters_map h1 h1'
  subst e
  rw [h2, digitsValue_eq, digitsValue_eq] at h2'
  have := Nat.ofDigits_inj_of_len_eq (b := 256) (by omega) (by simpa using hl)
    (fun x hx => by
      simp only [List.mem_reverse, List.mem_map] at hx
      obtain ⟨c, -, rfl⟩ := hx
      exact c.toNat_lt)
    (fun x hx => by
      simp only [List.mem_reverse, List.mem_map] at hx
      obtain ⟨c, -, rfl⟩ := hx
      exact c.toNat_lt) h2'
  exact List.map_injective_iff.mpr (fun _ _ => UInt8.toNat_inj.mp) (List.reverse_injective this)

/-- Addresses with equal prefixes differ if the hashes differ. -/
theorem Js.Like.address_ne {js : Js} {cr : Crypto} (hl : js.Like cr) (hs : cr.Sized) {c : Curve} {key t bytes : Bytes}
    (h : IsAddressOf cr c key t) (hne : js.blake2b 20 bytes ≠ js.blake2b 20 (hashedKey c key)) : js.address (addressPrefix c) bytes ≠ t := by
  intro he
  obtain ⟨a, h1, d1, d2, h2, h3, hd⟩ := h
  have hl1 := hs.blake2b h1
  have hl2 := hs.sha256 h3
  have hb := hl.blakeSize 20 bytes
  have h4 := hl.shaSize (js.sha256 (addressPrefix c ++ js.blake2b 20 bytes))
  have ha := hl.bs58 (addressPrefix c ++ js.blake2b 20 bytes ++
    (js.sha256 (js.sha256 (addressPrefix c ++ js.blake2b 20 bytes))).take 4)
  rw [← he] at hd
  have := IsBase58.data ha hd (by simp only [List.length_append, List.length_take]; omega)
  simp only [List.append_assoc, List.append_cancel_left_eq] at this
  have h5 := List.append_inj_left this (by omega)
  rw [hl.blake2b h1] at hne
  exact hne h5

/-! ### Keys -/

/-- The calls of the library that return a public key and its address in the manner of the older app. -/
inductive LegacyKeyCall (js : Js) (path : Bytes) (curve : UInt8) : Client (Response (Bytes × Bytes)) → Prop where
  | get {call} (h : legacyPubKey js false path curve = some call) : LegacyKeyCall js path curve call
  | prompt {call} (h : legacyPubKey js true path curve = some call) : LegacyKeyCall js path curve call
  | setup {call} (main test chain : UInt32) (h : legacySetup js path curve main test chain = some call) :
      LegacyKeyCall js path curve call

/-- The bytes that are hashed for the address when the answer of the device, the key after its length and before `tail`,
is taken for the key. -/
def misread (c : Curve) (key tail : Bytes) : Bytes :=
  match c with
  | .ed25519 | .bip32Ed25519 => key ++ tail
  | .secp256k1 | .secp256r1 => (if (key.getD 63 0).toNat % 2 = 0 then 2 else 3) :: key.take 32

theorem readLegacyKey_answer {js : Js} {curve : UInt8} {c : Curve} {key tail : Bytes}
    (hlen : key.length = (match c with | .ed25519 | .bip32Ed25519 => 33 | .secp256k1 | .secp256r1 => 65))
    (hc : Curve.ofByte curve = some c) :
    ∃ k, readLegacyKey js curve (UInt8.ofNat key.length :: key ++ tail ++ [0x90, 0x00]) =
      some (k, js.address (addressPrefix c) (misread c key tail)) ∧ k.length = 1 + key.length + tail.length ∧
      k.drop 1 = key ++ tail := by
  have hcases : (curve = 0 ∧ c = .ed25519) ∨ (curve = 1 ∧ c = .secp256k1) ∨ (curve = 2 ∧ c = .secp256r1) ∨
      (curve = 3 ∧ c = .bip32Ed25519) := by
    unfold Curve.ofByte at hc
    repeat' split at hc
    all_goals cases hc
    all_goals simp_all
  unfold readLegacyKey
  rw [dropStatus_append]
  have hsecp : ∀ pfx, key.length = 65 → ∃ last, (UInt8.ofNat key.length :: key ++ tail)[64]? = some last ∧
      js.address pfx (((0x02 + (last &&& 0x01)) :: (key ++ tail)).take 33) =
        js.address pfx ((if (key.getD 63 0).toNat % 2 = 0 then 2 else 3) :: key.take 32) := by
    intro pfx h65
    refine ⟨key.getD 63 0, ?_, ?_⟩
    · rw [List.cons_append, List.getElem?_cons_succ, List.getElem?_append_left (by omega), List.getD_eq_getElem?_getD,
        List.getElem?_eq_getElem (by omega)]
      rfl
    · rw [header_parity, List.take_succ_cons, List.take_append_of_le_length (by omega)]
  rcases hcases with ⟨rfl, rfl⟩ | ⟨rfl, rfl⟩ | ⟨rfl, rfl⟩ | ⟨rfl, rfl⟩
  · exact ⟨UInt8.ofNat key.length :: key ++ tail, rfl, by simp; omega, rfl⟩
  · obtain ⟨last, h1, h2⟩ := hsecp [6, 161, 161] hlen
    refine ⟨(0x02 + (last &&& 0x01)) :: (key ++ tail), ?_, by simp; omega, rfl⟩
    simp only [publicKeyToAddress, h1]
    exact congrArg (fun a => some (_, a)) h2
  · obtain ⟨last, h1, h2⟩ := hsecp [6, 161, 164] hlen
    refine ⟨(0x02 + (last &&& 0x01)) :: (key ++ tail), ?_, by simp; omega, rfl⟩
    simp only [publicKeyToAddress, h1]
    exact congrArg (fun a => some (_, a)) h2
  · exact ⟨UInt8.ofNat key.length :: key ++ tail, rfl, by simp; omega, rfl⟩

theorem legacyKey_answer (cfg : Config) (new : NewDevice) (es : List (Env × Event))
    (hes : ∀ e ∈ es, e.1.keyF.Detected ∧ ∀ r, (e.1.markF r).Sound)
    (hlen : es.length < 2 ^ 64) (cr : Crypto) (hs : cr.Sized) (hcr : ∀ e ∈ es, e.1.cr = cr) (past t rest : List Moment)
    (h : (Dev.factory new).trace cfg es = past ++ (t ++ rest)) (js : Js) (hjs : js.ReadsDecimal)
    (path : Bytes) (cs : List Component) (hcs : IsPathText path cs) (curve : UInt8)
    (call : Client (Response (Bytes × Bytes))) (hcall : LegacyKeyCall js path curve call)
    (r : Response (Bytes × Bytes)) (ht : Talk call t r) (hr : r.returnCode = 0x9000) :
    ∃ c key tail, Curve.ofByte curve = some c ∧ cr.publicKey c (cs.map Component.bits) = some key ∧
      (tail = [] ∨ IsAddressOf cr c key tail) ∧
      r.body = readLegacyKey js curve (UInt8.ofNat key.length :: key ++ tail ++ [0x90, 0x00]) := by
  cases hcall with
  | get hcall =>
    simp only [legacyPubKey, Option.map_eq_some_iff] at hcall
    obtain ⟨p, hp, rfl⟩ := hcall
    obtain ⟨q, seg, q', d, rfl, -, -, hsu, hbody⟩ := Talk.success h ht hr
    have hcmd : command cfg.build 0x02 = some .getKey := by cases cfg.build <;> rfl
    cases hsu with
    | @atOnce m hc hrun hrep =>
      have h' : (Dev.factory new).trace cfg es = (past ++ q) ++ m :: (q' ++ rest) := by rw [h]; simp
      obtain ⟨ea, eb, rfl, _, _, _, hout, _⟩ := Dev.trace_split h'
      rw [hout] at hrep
      obtain ⟨k, hk, key, hkey, rfl⟩ := ((C59_public_key cfg m.env m.st hrun m.ev 0 curve p hc).data d).mp hrep
      have hpath := sent_key hjs hcs hp hk.path
      have hmcr : m.env.cr = cr := hcr (m.env, m.ev) (by simp)
      exact ⟨k.curve, key, [], (hk.read (by decide)).1, by rw [← hpath, ← hmcr]; exact hkey, .inl rfl,
        by rw [hbody, List.append_nil]⟩
    | @later m l b v hc ho hb ha hrep =>
      exfalso
      obtain ⟨c, _, _, hcmd', hrun, hop⟩ := hc.opens ho
      have e : some Cmd.getKey = some c := hcmd.symm.trans hcmd'
      cases e
      cases hop with
      | addr hcmd' => rcases hcmd' with h0 | ⟨h0, _⟩ <;> cases h0
  | prompt hcall =>
    simp only [legacyPubKey, Option.map_eq_some_iff] at hcall
    obtain ⟨p, hp, rfl⟩ := hcall
    obtain ⟨q, seg, q', d, rfl, -, -, hsu, hbody⟩ := Talk.success h ht hr
    have hcmd : command cfg.build 0x03 = some .promptAddr := by cases cfg.build <;> rfl
    cases hsu with
    | @atOnce m hc hrun hrep =>
      exfalso
      have h' : (Dev.factory new).trace cfg es = (past ++ q) ++ m :: (q' ++ rest) := by rw [h]; simp
      obtain ⟨ea, eb, rfl, _, _, _, hout, _⟩ := Dev.trace_split h'
      rw [hout, hc.step hrun hcmd] at hrep
      exact m.st.addr_reply m.env curve (some p) d hrep
    | @later m l b v hc ho hb ha hrep =>
      have h' : (Dev.factory new).trace cfg es = ((past ++ q) ++ m :: b) ++ l :: (q' ++ rest) := by rw [h]; simp
      obtain ⟨c, _, _, hcmd', hrun, hop⟩ := hc.opens ho
      have e : some Cmd.promptAddr = some c := hcmd.symm.trans hcmd'
      cases e
      cases hop with
      | addr hcmd' hcv hpl hrd hk haddr =>
        rename_i k p' key a
        cases hpl
        obtain ⟨before, m0, b', heq, ho', hb', hc0, hcm, -⟩ := reviewed h' hs hcr ha
        obtain ⟨rfl, rfl, rfl⟩ := same_opening heq ho hb ho'.apdu fun y hy => (hb' y hy).2
        rw [hc0] at hk haddr
        have hpath := sent_key hjs hcs hp (Path.read_ok.mp hrd).2.2.2
        obtain ⟨hadr, hok⟩ := Addr.ofKey_spec haddr
        rw [ha.reply h'] at hrep
        simp only [View.accept, if_true, hok hs] at hrep
        refine ⟨k.curve, key, base58 a.bytes, hcv, by rw [← hpath]; exact hk, .inr hadr, ?_⟩
        rw [hbody, Dev.ok_reply hrep]
        rfl
  | setup main test chain hcall =>
    obtain ⟨l, c, key, acc, hc, hacc, -, -, hbody⟩ := setup_success cfg new es hes hlen cr hs hcr past t rest h js hjs
      path cs hcs curve main test chain call hcall r ht hr
    exact ⟨c, key, [], hc, hacc.derived, .inl rfl, by rw [hbody, List.append_nil]⟩

/-- C67 fails: the calls `legacyGetPubKey`, `legacyPromptPubKey` and `legacySetup` never return the public key. If they
return success, what they return as the public key is longer than it by at least one byte; and what they return as the
address is not the address of the key, unless two hashes collide. -/
theorem C67_legacy_key_is_not_the_key (cfg : Config) (new : NewDevice) (es : List (Env × Event))
    (hes : ∀ e ∈ es, e.1.keyF.Detected ∧ ∀ r, (e.1.markF r).Sound)
    (hlen : es.length < 2 ^ 64) (cr : Crypto) (hs : cr.Sized) (hcr : ∀ e ∈ es, e.1.cr = cr) (past t rest : List Moment)
    (h : (Dev.factory new).trace cfg es = past ++ (t ++ rest)) (js : Js) (hjs : js.ReadsDecimal) (hl : js.Like cr)
    (path : Bytes) (cs : List Component) (hcs : IsPathText path cs) (curve : UInt8)
    (call : Client (Response (Bytes × Bytes))) (hcall : LegacyKeyCall js path curve call)
    (r : Response (Bytes × Bytes)) (ht : Talk call t r) (hr : r.returnCode = 0x9000) :
    ∃ c key k text tail, Curve.ofByte curve = some c ∧ cr.publicKey c (cs.map Component.bits) = some key ∧
      r.body = some (k, text) ∧ key.length < k.length ∧ (k.drop 1).take key.length = key ∧
      (tail = [] ∨ IsAddressOf cr c key tail) ∧
      (js.blake2b 20 (misread c key tail) ≠ js.blake2b 20 (hashedKey c key) → ¬ IsAddressOf cr c key text) := by
  obtain ⟨c, key, tail, hc, hkey, htl, hbody⟩ := legacyKey_answer cfg new es hes hlen cr hs hcr past t rest h js hjs path cs
    hcs curve call hcall r ht hr
  obtain ⟨k, hk, hkl, hkd⟩ := readLegacyKey_answer (js := js) (tail := tail) (hs.publicKey hkey) hc
  refine ⟨c, key, k, _, tail, hc, hkey, hbody.trans hk, by omega, by rw [hkd]; simp, htl, fun hne ha => ?_⟩
  exact hl.address_ne hs ha hne rfl

/-- C67 fails: `publicKeyToAddress` changes the key it is given. For the curves secp256k1 and secp256r1 the first byte of
the buffer of the caller becomes 2 or 3, where it was 4. -/
theorem C67_address_changes_the_key (js : Js) (cr : Crypto) (hs : cr.Sized) (curve : UInt8) (c : Curve)
    (hc : Curve.ofByte curve = some c) (path : Path) (key : Bytes) (hk : cr.publicKey c path = some key) :
    ∃ text key', publicKeyToAddress js key curve = some (text, key') ∧
      (c = .ed25519 ∨ c = .bip32Ed25519 → key' = key) ∧
      (c = .secp256k1 ∨ c = .secp256r1 → key'.head? = some 2 ∨ key'.head? = some 3) := by
  have hlen := hs.publicKey hk
  have hsecp : key.length = 65 → ∃ last, key[64]? = some last := fun h => ⟨key[64], by simp [h]⟩
  have hcases : (curve = 0 ∧ c = .ed25519) ∨ (curve = 1 ∧ c = .secp256k1) ∨ (curve = 2 ∧ c = .secp256r1) ∨
      (curve = 3 ∧ c = .bip32Ed25519) := by
    unfold Curve.ofByte at hc
    repeat' split at hc
    all_goals cases hc
    all_goals simp_all
  have hhead : ∀ last : UInt8, ∀ l : Bytes, ((0x02 + (last &&& 0x01)) :: l).head? = some 2 ∨
      ((0x02 + (last &&& 0x01)) :: l).head? = some 3 := by
    intro last l
    rw [header_parity]
    split <;> simp
  rcases hcases with ⟨rfl, rfl⟩ | ⟨rfl, rfl⟩ | ⟨rfl, rfl⟩ | ⟨rfl, rfl⟩
  · exact ⟨_, key, rfl, fun _ => rfl, by simp⟩
  · obtain ⟨last, hl⟩ := hsecp hlen
    refine ⟨?_, (0x02 + (last &&& 0x01)) :: key.drop 1, ?_, by simp, fun _ => hhead _ _⟩
    rotate_left
    · simp only [publicKeyToAddress, hl]
      rfl
  · obtain ⟨last, hl⟩ := hsecp hlen
    refine ⟨?_, (0x02 + (last &&& 0x01)) :: key.drop 1, ?_, by simp, fun _ => hhead _ _⟩
    rotate_left
    · simp only [publicKeyToAddress, hl]
      rfl
  · exact ⟨_, key, rfl, fun _ => rfl, by simp⟩

/-! ### Signatures and hashes -/

/-- C67 fails: if `legacySign` returns success, the device handed out one signature of the given message, but if it is
longer than 32 bytes, as those of all curves are, only its first 32 bytes are returned; the hash returned is zero. -/
theorem C67_legacy_sign_is_cut (cfg : Config) (new : NewDevice) (hu : new.upload.length = uploadCapacity)
    (es : List (Env × Event)) (hg : ∀ e ∈ es, Good e.1 e.2) (past t rest : List Moment)
    (h : (Dev.factory new).trace cfg es = past ++ (t ++ rest)) (js : Js) (path : Bytes) (curve : UInt8)
    (message : Bytes) (kind : LegacyMessage) (r : SignResponse) (ht : Talk (legacySign js path curve message kind) t r) :
    (r.returnCode ≠ 0x9000 ∧ sigsOf t = []) ∨
    (r.returnCode = 0x9000 ∧ ∃ x, sigsOf t = [x] ∧ x.msg = kind.magic :: message ∧ Curve.ofByte curve = some x.curve ∧
      (32 < x.sig.length → r.body = some (List.replicate 32 0, x.sig.take 32) ∧ ∀ hash, r.body ≠ some (hash, x.sig))) := by
  obtain ⟨f, hf⟩ : ∃ f, familyOf cfg.build 0x04 = some f := by cases cfg.build <;> exact ⟨_, rfl⟩
  rcases SignCall.sign_res (c := ⟨0x04, true, false, curve⟩) hu hg h hf (by simp) ht with hr | ⟨hr, p, x, hp, hx⟩
  · exact .inl hr
  · refine .inr ⟨hr, x, hx.sigs, hx.msg, hx.curve, fun hl => ?_⟩
    have hb := hx.body
    rw [if_neg (show (0x04 : UInt8) ∉ hashInstructions by decide), List.nil_append] at hb
    unfold SignCall.readAnswer at hb
    have hst : statusOf (x.sig ++ [0x90, 0x00]) = 0x9000 := statusOf_append _ 0x90 0x00
    rw [if_pos ⟨hst, by simp; omega⟩, if_neg (by simp), List.take_append_of_le_length (by omega)] at hb
    refine ⟨hb, fun hash e => ?_⟩
    rw [hb] at e
    have := congrArg List.length (Prod.mk.inj (Option.some.inj e)).2
    rw [List.length_take] at this
    omega

/-- C67, the part that holds: if a call for a signature returns success, `sig_hash` of the message is the hash
returned, for the kind of message that has the byte that was signed. -/
theorem C67_sig_hash_partial (cfg : Config) (new : NewDevice) (hu : new.upload.length = uploadCapacity)
    (es : List (Env × Event)) (hg : ∀ e ∈ es, Good e.1 e.2) (hcr : ∀ e ∈ es, e.1.cr.Sized) (past t rest : List Moment)
    (h : (Dev.factory new).trace cfg es = past ++ (t ++ rest)) (js : Js) (hjs : js.ReadsDecimal)
    (hl : ∀ m ∈ t, js.Like m.env.cr) (path : Bytes) (cs : List Component) (hcs : IsPathText path cs) (curve : UInt8)
    (message : Bytes) (kind : LegacyMessage) (call : Client SignResponse)
    (hcall : SigningRequest js path curve message kind.magic call) (r : SignResponse) (ht : Talk call t r)
    (hr : r.returnCode = 0x9000) : r.body.map (·.1) = some (sigHash js message kind) := by
  rcases C62_signing cfg new hu es hg hcr past t rest h js hjs path cs hcs curve message _ call hcall r ht with
    ⟨h0, _⟩ | ⟨_, x, -, -, -, -, ⟨m, hm, hd⟩, -, hb⟩
  · exact absurd hr h0
  · rw [hb]
    exact congrArg some ((hl m hm).blake2b hd).symm

/-- C67 fails: if `signBaker` returns success for a block of the current protocol, `sig_hash` of this block is not the
hash that was signed, unless two hashes collide: it is taken with the byte of the earlier protocol. -/
theorem C67_sig_hash_differs (cfg : Config) (new : NewDevice) (hu : new.upload.length = uploadCapacity)
    (es : List (Env × Event)) (hg : ∀ e ∈ es, Good e.1 e.2) (hcr : ∀ e ∈ es, e.1.cr.Sized) (past t rest : List Moment)
    (h : (Dev.factory new).trace cfg es = past ++ (t ++ rest)) (js : Js) (hjs : js.ReadsDecimal)
    (hl : ∀ m ∈ t, js.Like m.env.cr) (path : Bytes) (cs : List Component) (hcs : IsPathText path cs) (curve : UInt8)
    (message : Bytes) (hv : message[90]? = some 2) (call : Client SignResponse)
    (hcall : signBaker js path curve message .blocklevel = some call) (r : SignResponse) (ht : Talk call t r)
    (hr : r.returnCode = 0x9000) (hne : js.blake2b 32 (0x01 :: message) ≠ js.blake2b 32 (0x11 :: message)) :
    r.body.map (·.1) ≠ some (sigHash js message .blocklevel) := by
  rcases C62_signing cfg new hu es hg hcr past t rest h js hjs path cs hcs curve message 0x11 call
    (.block (.inr ⟨hv, rfl⟩) hcall) r ht with ⟨h0, _⟩ | ⟨_, x, -, -, -, -, ⟨m, hm, hd⟩, -, hb⟩
  · exact absurd hr h0
  · rw [hb]
    intro e
    refine hne (Eq.trans ?_ ((hl m hm).blake2b hd).symm)
    exact (Option.some.inj e).symm

/-! ### Texts that are not paths -/

theorem IsPathText.split {t : Bytes} {cs : List Component} (h : IsPathText t cs) :
    ∃ ps : List (Bytes × Component), (∀ p ∈ ps, IsComponentText p.1 p.2) ∧ splitOn 0x2f t = [0x6d] :: ps.map (·.1) := by
  obtain ⟨ps, hps, -, rfl⟩ := h
  refine ⟨ps, hps, ?_⟩
  have := splitOn_join (sep := 0x2f) (t := [0x6d]) (ts := ps.map (·.1)) (by decide) fun x hx => by
    obtain ⟨p, hp, rfl⟩ := List.mem_map.mp hx
    exact componentText_no_slash (hps p hp)
  rw [← this, List.flatMap_map]
  rfl

theorem splitOn_flatMap (sep : UInt8) (t : Bytes) :
    ∃ p ps, splitOn sep t = p :: ps ∧ (∀ x ∈ p :: ps, sep ∉ x) ∧ t = p ++ ps.flatMap fun x => sep :: x := by
  induction t with
  | nil => exact ⟨[], [], rfl, by simp, rfl⟩
  | cons c t ih =>
    obtain ⟨p, ps, h1, h3, h2⟩ := ih
    rw [splitOn]
    split
    · rename_i hc
      subst hc
      refine ⟨[], p :: ps, by rw [h1], ?_, by rw [h2]; simp⟩
      intro x hx
      rcases List.mem_cons.mp hx with rfl | hx
      · simp
      · exact h3 x hx
    · rename_i hc
      rw [h1]
      refine ⟨c :: p, ps, rfl, ?_, by rw [h2]; rfl⟩
      intro x hx
      rcases List.mem_cons.mp hx with rfl | hx
      · simp only [List.mem_cons, not_or]
        exact ⟨fun e => hc e.symm, h3 p (by simp)⟩
      · exact h3 x (by simp [hx])

theorem mapM_some_mem {α β : Type} {f : α → Option β} {l : List α} {r : List β} (h : l.mapM f = some r) :
    ∀ a ∈ l, ∃ b, f a = some b := by
  induction l generalizing r with
  | nil => simp
  | cons a l ih =>
    rw [List.mapM_cons] at h
    obtain ⟨b, hb, h⟩ := Option.bind_eq_some_iff.mp h
    obtain ⟨bs, hbs, h⟩ := Option.bind_eq_some_iff.mp h
    intro x hx
    rcases List.mem_cons.mp hx with rfl | hx
    · exact ⟨b, hb⟩
    · exact ih hbs x hx

theorem childNumber_is_component {js : Js} (hq : ∀ t, (0x27 : UInt8) ∈ t → js.number t = none) {y : Bytes} {u : UInt32}
    (h : childNumber js y = some u) (hc : ∀ c ∈ y, isDigit c ∨ c = 0x27) (h1 : y ≠ []) (h2 : y ≠ [0x27]) :
    ∃ c, IsComponentText y c := by
  unfold childNumber at h
  by_cases hh : y.getLast? = some 0x27
  · simp only [hh, if_true] at h
    obtain ⟨d, rfl⟩ : ∃ d, y = d ++ [0x27] := ⟨y.dropLast, (List.dropLast_append_getLast? _ hh).symm⟩
    rw [List.dropLast_concat] at h
    cases hn : js.number d with
    | none => rw [hn] at h; cases h
    | some n =>
      have hd : (0x27 : UInt8) ∉ d := fun hm => by rw [hq d hm] at hn; cases hn
      refine ⟨⟨textValue d, true⟩, d, ⟨by rintro rfl; exact h2 rfl, fun c hc' => ?_, rfl⟩, rfl⟩
      rcases hc c (by simp [hc']) with h | rfl
      · exact h
      · exact absurd hc' hd
  · simp only [hh, if_false] at h
    cases hn : js.number y with
    | none => rw [hn] at h; cases h
    | some n =>
      have hd : (0x27 : UInt8) ∉ y := fun hm => by rw [hq y hm] at hn; cases hn
      refine ⟨⟨textValue y, false⟩, y, ⟨h1, fun c hc' => ?_, rfl⟩, by simp⟩
      rcases hc c hc' with h | rfl
      · exact h
      · exact absurd hc' hd

theorem components_of {xs : List Bytes} (h : ∀ y ∈ xs, ∃ c, IsComponentText y c) :
    ∃ ps : List (Bytes × Component), (∀ p ∈ ps, IsComponentText p.1 p.2) ∧ ps.map (·.1) = xs := by
  induction xs with
  | nil => exact ⟨[], by simp, rfl⟩
  | cons y xs ih =>
    obtain ⟨c, hc⟩ := h y (by simp)
    obtain ⟨ps, h1, h2⟩ := ih fun z hz => h z (by simp [hz])
    refine ⟨(y, c) :: ps, ?_, by simp [h2]⟩
    intro p hp
    rcases List.mem_cons.mp hp with rfl | hp
    · exact hc
    · exact h1 p hp

/-- C68, the part that holds: a text that begins with `m` and a slash, has no empty component and otherwise consists of
digits, apostrophes and slashes, is sent only if it is a path, and then as this path. `Number` gives `NaN` for texts with
an apostrophe. -/
theorem C68_only_paths_partial (js : Js) (hjs : js.ReadsDecimal) (hq : ∀ t, (0x27 : UInt8) ∈ t → js.number t = none)
    (t p : Bytes) (hp : serializePath js t = some p) (hm : ([0x6d, 0x2f] : Bytes) <+: t)
    (hchars : ∀ c ∈ t.drop 1, isDigit c ∨ c = 0x27 ∨ c = 0x2f)
    (hempty : ∀ x ∈ splitOn 0x2f t, x ≠ [] ∧ x ≠ [0x27]) :
    ∃ cs, IsPathText t cs ∧ p = UInt8.ofNat cs.length :: (cs.map Component.bits).flatMap be32 := by
  obtain ⟨r, rfl⟩ := hm
  obtain ⟨x, xs, h1, h3, h2⟩ := splitOn_flatMap 0x2f r
  have hsp : splitOn 0x2f ([0x6d, 0x2f] ++ r) = [0x6d] :: x :: xs := by
    rw [← h1]; rfl
  rw [hsp] at hempty
  have hmap : ∃ us, (x :: xs).mapM (childNumber js) = some us := by
    unfold serializePath at hp
    rw [if_neg (by simp)] at hp
    simp only [hsp] at hp
    split at hp
    · cases hp
    · obtain ⟨us, hus, -⟩ := Option.bind_eq_some_iff.mp hp
      exact ⟨us, hus⟩
  obtain ⟨us, hus⟩ := hmap
  have hall : ∀ y ∈ x :: xs, ∃ c, IsComponentText y c := by
    intro y hy
    obtain ⟨u, hu⟩ := mapM_some_mem hus y hy
    refine childNumber_is_component hq hu (fun c hc => ?_) (hempty y (by simp at hy; simp [hy])).1
      (hempty y (by simp at hy; simp [hy])).2
    have hcr : c ∈ r := by
      rw [h2]
      rcases List.mem_cons.mp hy with rfl | hy
      · simp [hc]
      · exact List.mem_append_right _ (List.mem_flatMap.mpr ⟨y, hy, by simp [hc]⟩)
    rcases hchars c (by simp [hcr]) with h | h | h
    · exact .inl h
    · exact .inr h
    · subst h; exact absurd hc (h3 y hy)
  obtain ⟨ps, hps, he⟩ := components_of hall
  have ht : IsPathText ([0x6d, 0x2f] ++ r) (ps.map (·.2)) := by
    refine ⟨ps, hps, rfl, ?_⟩
    have e : ps.flatMap (fun p => (0x2f : UInt8) :: p.1) = (ps.map (·.1)).flatMap fun x => 0x2f :: x := by
      rw [List.flatMap_map]
    rw [e, he, h2]
    rfl
  refine ⟨_, ht, ?_⟩
  rw [C63_path_text js hjs _ _ ht] at hp
  split at hp
  · exact (Option.some.inj hp).symm
  · cases hp

/-- C68 fails: whatever stands between the `m` and the first slash is ignored. -/
theorem C68_text_after_m_is_ignored (js : Js) (junk rest : Bytes) (h : (0x2f : UInt8) ∉ junk) :
    serializePath js (0x6d :: junk ++ 0x2f :: rest) = serializePath js (0x6d :: 0x2f :: rest) := by
  have e1 : splitOn 0x2f (0x6d :: junk ++ 0x2f :: rest) = (0x6d :: junk) :: splitOn 0x2f rest :=
    splitOn_cons (by simp only [List.mem_cons, not_or]; exact ⟨by decide, h⟩)
  have e2 : splitOn 0x2f (0x6d :: 0x2f :: rest) = [0x6d] :: splitOn 0x2f rest := rfl
  unfold serializePath
  simp only [e1, e2]
  rfl

/-- C68 fails: an empty component, which `Number` reads as 0, is sent as the index 0, and a negative index that is marked
as hardened as an index that is not hardened. -/
theorem C68_not_refused (js : Js) (hjs : js.ReadsDecimal) (h0 : js.number [] = some 0)
    (h1 : js.number (ascii "-1") = some (-1)) :
    serializePath js (ascii "m/44'/") = serializePath js (ascii "m/44'/0") ∧
    serializePath js (ascii "m/44'/-1'") = serializePath js (ascii "m/44'/2147483647") ∧
    serializePath js (ascii "m/44'/0") ≠ none ∧ serializePath js (ascii "m/44'/2147483647") ≠ none ∧
    (¬ ∃ cs, IsPathText (ascii "m/44'/") cs) ∧ ¬ ∃ cs, IsPathText (ascii "m/44'/-1'") cs := by
  have n44 : js.number (ascii "44") = some 44 :=
    hjs _ 44 ⟨by decide, by simp only [isDigit]; decide, by decide⟩
  have n0 : js.number (ascii "0") = some 0 := hjs _ 0 ⟨by decide, by simp only [isDigit]; decide, by decide⟩
  have nm : js.number (ascii "2147483647") = some 2147483647 :=
    hjs _ 2147483647 ⟨by decide, by simp only [isDigit]; decide, by decide⟩
  have child : ∀ (y d : Bytes) (hd : Bool) (n : Int) (u : UInt32), (y.getLast? = some 0x27 ↔ hd = true) →
      (if hd then y.dropLast else y) = d → js.number d = some n → n < 0x80000000 →
      (if hd then 0x80000000 + n else n) = (u.toNat : Int) → childNumber js y = some u := by
    intro y d hd n u e1 e2 e3 e4 e5
    have hu := u.toNat_lt
    unfold childNumber
    cases hd with
    | true =>
      have e1 := e1.mpr rfl
      simp only [if_true] at e2 e5
      simp only [e1, if_true, e2, e3, e5]
      rw [if_neg (by omega), if_pos (by omega)]
      simp
    | false =>
      have e1 : ¬ y.getLast? = some 0x27 := fun h => by cases e1.mp h
      simp only [Bool.false_eq_true, if_false] at e2 e5
      subst e2
      simp only [e1, if_false, e3]
      rw [if_neg (by omega), if_pos (by omega), e5]
      simp
  have c44 := child (ascii "44'") (ascii "44") true 44 0x8000002c (by decide) (by decide) n44 (by decide) (by decide)
  have cE := child [] [] false 0 0 (by decide) (by decide) h0 (by decide) (by decide)
  have c0 := child (ascii "0") (ascii "0") false 0 0 (by decide) (by decide) n0 (by decide) (by decide)
  have cN := child (ascii "-1'") (ascii "-1") true (-1) 0x7fffffff (by decide) (by decide) h1 (by decide) (by decide)
  have cM := child (ascii "2147483647") (ascii "2147483647") false 2147483647 0x7fffffff (by decide) (by decide) nm
    (by decide) (by decide)
  have hser : ∀ (t y : Bytes) (u : UInt32), t.head? = some 0x6d → splitOn 0x2f t = [ascii "m", ascii "44'", y] →
      childNumber js y = some u → serializePath js t = some (2 :: ([0x8000002c, u] : List UInt32).flatMap be32) := by
    intro t y u ht hsp hy
    unfold serializePath
    rw [if_neg (by simp [ht])]
    simp only [hsp, List.drop_succ_cons, List.drop_zero, List.mapM_cons, List.mapM_nil, c44, hy]
    rfl
  have sE := hser (ascii "m/44'/") [] 0 (by decide) (by decide) cE
  have s0 := hser (ascii "m/44'/0") (ascii "0") 0 (by decide) (by decide) c0
  have sN := hser (ascii "m/44'/-1'") (ascii "-1'") 0x7fffffff (by decide) (by decide) cN
  have sM := hser (ascii "m/44'/2147483647") (ascii "2147483647") 0x7fffffff (by decide) (by decide) cM
  refine ⟨sE.trans s0.symm, sN.trans sM.symm, by rw [s0]; simp, by rw [sM]; simp, ?_, ?_⟩
  · rintro ⟨cs, hcs⟩
    obtain ⟨ps, hps, hsp⟩ := IsPathText.split hcs
    have e : splitOn 0x2f (ascii "m/44'/") = [ascii "m", ascii "44'", []] := by decide
    rw [e] at hsp
    have hm : [] ∈ ps.map (·.1) := by rw [← (List.cons.inj hsp).2]; simp
    obtain ⟨q, hq, hq1⟩ := List.mem_map.mp hm
    obtain ⟨d, hd, he⟩ := hps q hq
    rw [hq1] at he
    exact hd.nonempty (List.append_eq_nil_iff.mp he.symm).1
  · rintro ⟨cs, hcs⟩
    obtain ⟨ps, hps, hsp⟩ := IsPathText.split hcs
    have e : splitOn 0x2f (ascii "m/44'/-1'") = [ascii "m", ascii "44'", ascii "-1'"] := by decide
    rw [e] at hsp
    have hm : ascii "-1'" ∈ ps.map (·.1) := by rw [← (List.cons.inj hsp).2]; simp
    obtain ⟨q, hq, hq1⟩ := List.mem_map.mp hm
    obtain ⟨d, hd, he⟩ := hps q hq
    rw [hq1] at he
    have hmem : (0x2d : UInt8) ∈ d ++ if q.2.hardened then [0x27] else [] := by rw [← he]; decide
    rcases List.mem_append.mp hmem with h | h
    · exact absurd (hd.digits _ h) (by simp only [isDigit]; decide)
    · split at h
      · exact absurd h (by decide)
      · cases h

namespace Demo

theorem js_like : js.Like crypto where
  blake2b h := by simpa [js, crypto] using h
  sha256 h := by simpa [js, crypto] using h
  bs58 data := base58_isBase58 data
  blakeSize n m := by simp [js, hash]
  shaSize m := by simp [js, hash]

/-- The legacy calls on the wallet app: the keys of two curves, a key with confirmation, a signature. -/
def clientLegacy : List (Env × Event) :=
  ok [apdu 0x02 0 0 keyPath] ++ ok [apdu 0x02 0 1 keyPath] ++
    (ok <| apdu 0x03 0 0 keyPath :: List.replicate 2 .right ++ [.both]) ++
    (ok <| [apdu 0x04 0 0 keyPath, apdu 0x04 0x81 0 delegation] ++ List.replicate 11 .right ++ [.both])

set_option maxRecDepth 100000 in
set_option synthInstance.maxSize 1000 in
/-- The hypotheses of `C67_legacy_key_is_not_the_key` and `C67_legacy_sign_is_cut`, and what the calls return. -/
example :
    let t := (Dev.factory ⟨.small, List.replicate uploadCapacity 0⟩).trace walletApp clientLegacy
    let key := (crypto.publicKey .ed25519 [0x8000002c, 0x800006c1]).getD []
    let key1 := (crypto.publicKey .secp256k1 [0x8000002c, 0x800006c1]).getD []
    let sig := hash 64 (0 :: keyPath.drop 1 ++ hash 32 delegation)
    ((legacyPubKey js false pathText 0).bind fun c => play (t.take 1) (.inl c)) =
      some ⟨0x9000, some (33 :: key, js.address [6, 161, 159] key)⟩ ∧
    js.blake2b 20 (misread .ed25519 key []) ≠ js.blake2b 20 (hashedKey .ed25519 key) ∧
    ((legacyPubKey js false pathText 1).bind fun c => play ((t.drop 1).take 1) (.inl c)).map
      (fun r => (r.returnCode, r.body.map (·.1.drop 1))) = some (0x9000, some key1) ∧
    ((legacyPubKey js true pathText 0).bind fun c => play ((t.drop 2).take 4) (.inl c)).map
      (fun r => (r.returnCode, r.body.map (·.1.take 34))) = some (0x9000, some (33 :: key)) ∧
    play (t.drop 6) (.inl (legacySign js pathText 0 (delegation.drop 1) .operation)) =
      some ⟨0x9000, some (List.replicate 32 0, sig.take 32)⟩ ∧ sig.length = 64 := by
  decide +kernel

/-- The hypotheses of `C67_sig_hash_differs`, with `clientBakes`, where `signBaker` succeeds for this block. -/
example : ((tbBlock 7 1).drop 1)[90]? = some 2 ∧
    js.blake2b 32 (0x01 :: (tbBlock 7 1).drop 1) ≠ js.blake2b 32 (0x11 :: (tbBlock 7 1).drop 1) := by
  decide +kernel

/-- The hypothesis of `C67_address_changes_the_key` and `C67_address_of_key_partial` on addresses. -/
example : ∃ text, IsAddressOf crypto .secp256k1 ((crypto.publicKey .secp256k1 []).getD []) text :=
  ⟨_, _, rfl, _, _, rfl, rfl, base58_isBase58 _⟩

/-- `Number` of some texts that are not decimal numbers. -/
def js' : Js := { js with number := fun t => if t = [] then some 0 else if t = ascii "-1" then some (-1) else js.number t }

/-- The hypotheses of `C68_not_refused` and `C68_only_paths_partial`. -/
example : js'.ReadsDecimal ∧ js'.number [] = some 0 ∧ js'.number (ascii "-1") = some (-1) ∧
    (∀ t, (0x27 : UInt8) ∈ t → js'.number t = none) ∧ serializePath js' pathText = some keyPath := by
  refine ⟨fun t n h => ?_, by decide, by decide, fun t h => ?_, by decide⟩
  · have h2 : t ≠ ascii "-1" := by
      rintro rfl
      exact absurd (h.digits 0x2d (by decide)) (by simp only [isDigit]; decide)
    simp only [js', if_neg h.nonempty, if_neg h2]
    exact js_decimal t n h
  · have h1 : t ≠ [] := by rintro rfl; cases h
    have h2 : t ≠ ascii "-1" := by rintro rfl; exact absurd h (by decide)
    simp only [js', if_neg h1, if_neg h2, js]
    rw [if_neg]
    intro hh
    exact absurd (hh.2 _ h) (by decide)

end Demo

end Tezos
