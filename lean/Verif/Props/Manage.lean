import Verif.Props.Replies
import Verif.Props.Records
import Verif.Props.Seen
/-
C58: the reviews that manage the authorized key (setup, authorize, de-authorize, query): what was asked for, what the
user read, and what approval does.
-/
set_option linter.unusedSimpArgs false
namespace Tezos
open Spec

/-! ### Reviews with fixed items -/

/-- A review consists of these items. -/
structure Presents (cr : Crypto) (w : Viewer) (items : List (String × Shown)) : Prop where
  count : w.numItems = .ok (UInt8.ofNat items.length)
  item : ∀ (n : Nat) e, items[n]? = some e → Renders cr (w.item (UInt8.ofNat n)) e

/-- The review approved at `m` consisted of these items at each event `b` since it was opened; and the user read them all
if the host sent no packet of a signing command meanwhile, and expert mode was off or the display is the larger one. -/
structure Reviewed (cfg : Config) (cr : Crypto) (b : List Moment) (m : Moment) (items : List (String × Shown)) :
    Prop where
  presents : ∀ y ∈ b ++ [m], ∃ w, y.st.viewer y.env = some w ∧ Presents cr w items
  read : (∀ y ∈ b, y.ev.packet cfg.build = none ∧ y.st.zui.Plain) →
    ∀ e ∈ items, UserRead cr.hashes ((b ++ [m]).map (·.st.zui.screen)) e

/-- Every event of a history has the cryptography of the history. -/
theorem trace_crypto {cfg : Config} {s : Dev} {es : List (Env × Event)} {cr : Crypto} (hcr : ∀ e ∈ es, e.1.cr = cr) :
    ∀ y ∈ s.trace cfg es, y.env.cr = cr := by
  induction es generalizing s with
  | nil => intro y hy; cases hy
  | cons e es ih =>
    intro y hy
    rcases List.mem_cons.mp hy with rfl | hy
    · exact hcr e (by simp)
    · exact ih (fun e he => hcr e (by simp [he])) y hy

/-- An approved review goes back to the request that opened it. -/
theorem reviewed {cfg : Config} {new : NewDevice} {es : List (Env × Event)} {past rest : List Moment} {m : Moment}
    (h : (Dev.factory new).trace cfg es = past ++ m :: rest) {cr : Crypto} (hs : cr.Sized)
    (hcr : ∀ e ∈ es, e.1.cr = cr) {v : View} (ha : Approves m.st m.ev v) :
    ∃ a m0 b, past = a ++ m0 :: b ∧ m0.Opens cfg v ∧ (∀ y ∈ b, y.st.view = some v ∧ ∀ w, ¬ y.Opens cfg w) ∧
      m0.env.cr = cr ∧ m.env.cr = cr ∧
      ∀ items : List (String × Shown), items.length < 256 → (∀ e ∈ items, Plain e) →
        (∀ mem, Presents cr (v.viewer cr mem) items) → Reviewed cfg cr b m items := by
  obtain ⟨a, m0, b, rfl, ho, hb, hall⟩ := C37_everything_displayed cfg new es past rest m h v ha
  have hcr' : ∀ y ∈ a ++ m0 :: b ++ m :: rest, y.env.cr = cr := by rw [← h]; exact trace_crypto hcr
  refine ⟨a, m0, b, rfl, ho, hb, hcr' m0 (by simp), hcr' m (by simp), fun items hl hp hpres => ⟨?_, ?_⟩⟩
  · intro y hy
    have hyv : y.st.view = some v := by
      rcases List.mem_append.mp hy with hy | hy
      · exact (hb y hy).1
      · rw [List.mem_singleton.mp hy]; exact ha.view
    have hyc : y.env.cr = cr := hcr' y (by
      rcases List.mem_append.mp hy with hy | hy
      · simp [hy]
      · simp [List.mem_singleton.mp hy])
    refine ⟨v.viewer y.env.cr y.st.upl.buf, by unfold Dev.viewer; rw [hyv]; rfl, ?_⟩
    rw [hyc]
    exact hpres _
  · intro hbb
    obtain ⟨w, hw, hd⟩ := hall hbb cr hs (fun y hy => hcr' y (by
      simp only [List.mem_append, List.mem_cons, List.mem_singleton, List.not_mem_nil, or_false] at hy ⊢
      rcases hy with h | h | h <;> simp [h]))
    have hwm := hw m (by simp)
    unfold Dev.viewer at hwm
    rw [ha.view, hcr' m (by simp)] at hwm
    cases hwm
    exact hd.read hl (hpres _).count hp (hpres _).item

/-- The kind of key of a curve. -/
def curveKind : Curve → KeyKind
  | .ed25519 | .bip32Ed25519 => .ed25519
  | .secp256k1 => .secp256k1
  | .secp256r1 => .p256

theorem curveKind_prefix (c : Curve) : (curveKind c).addressPrefix = addressPrefix c := by cases c <;> rfl

/-- The account of a path and curve: the hash of the public key there. -/
structure IsAccount (cr : Crypto) (k : PathAndCurve) (key : Bytes) (acc : Account) : Prop where
  derived : cr.publicKey k.curve k.path = some key
  kind : acc.kind = curveKind k.curve
  hash : cr.blake2b 20 (hashedKey k.curve key) = some acc.hash

theorem newAddr_account {cr : Crypto} (hs : cr.Sized) {k : PathAndCurve} {a : Addr}
    (h : newAddr cr k.curve k.path = some a) :
    ∃ key acc, IsAccount cr k key acc ∧ ∀ title, Renders cr (do return ⟨ascii title, ← a.base58⟩) (title, .account acc) := by
  unfold newAddr at h
  simp only [Option.bind_eq_bind, Option.bind_eq_some_iff] at h
  obtain ⟨key, hk, ha⟩ := h
  obtain ⟨⟨hash, hh, hc⟩, hok⟩ := Addr.ofKey_spec ha
  refine ⟨key, ⟨curveKind k.curve, hash⟩, ⟨hk, rfl, hh⟩, fun title => ?_⟩
  have hr : RendersText cr a.base58 (.account ⟨curveKind k.curve, hash⟩) := by
    refine ⟨fun t ht => ?_, fun _ => ⟨fun _ => trivial, fun _ => ⟨_, hok hs⟩⟩⟩
    rw [hok hs] at ht
    cases ht
    rw [base58_visible]
    refine ⟨?_, rfl⟩
    show IsBase58Check _ _ _ _
    rw [curveKind_prefix]
    exact hc
  exact hr.item title

/-! ### Effects of approval -/

/-- After an approval that is answered with success the authorized key is the approved one, or none if the
authorization was removed, also after a restart. -/
theorem key_after {cfg : Config} {new : NewDevice} {es : List (Env × Event)} (hes : ∀ e ∈ es, e.1.keyF.Detected)
    (hlen : es.length < 2 ^ 64) {past rest : List Moment} {m : Moment}
    (h : (Dev.factory new).trace cfg es = past ++ m :: rest) {v : View} (ha : Approves m.st m.ev v)
    {o : Option PathAndCurve} (hv : v.keyChange = some o) (hsu : m.Success) (s : Dev)
    (hs : s = m.next cfg ∨ s = (m.next cfg).relaunch) : s.storedKey = o := by
  obtain ⟨ea, eb, rfl, hla, rfl, hst, ho, _⟩ := Dev.trace_split h
  simp only [List.length_append, List.length_cons] at hlen
  obtain ⟨c, hk, _⟩ := history_key (cfg := cfg) (new := new) (es := ea)
    (fun e he => hes e (by simp [he])) (by omega)
  rw [← hst] at hk
  have hok : m.st.Ok := by rw [hst]; exact (Dev.Ok.factory new).run
  obtain ⟨c', h', hstep⟩ := m.st.step_key (cfg := cfg) (ev := m.ev) hok hk (hes (m.env, m.ev) (by simp)) (by omega)
  have hc' : c' = .val (keyBytes o) := by
    cases hstep with
    | same _ hn => rw [hn _ ha] at hv; cases hv
    | change v' hv' o' hvo _ hr =>
      cases ha.unique hv'
      rw [hv] at hvo
      cases hvo
      obtain ⟨d, hd⟩ := hsu
      rw [ho] at hd
      exact hr d hd
  subst hc'
  have hkey : (Cell.val (keyBytes o)).key = o := by
    cases o with
    | none => rfl
    | some k =>
      have hvo := hok v ha.view
      have hkk : 1 ≤ k.path.length ∧ k.path.length ≤ 10 := by
        cases v with
        | authorize k' a => cases hv; exact hvo
        | setup k' a m t ch => cases hv; exact hvo
        | _ => cases hv
      simp only [Cell.key, keyBytes, PathAndCurve.tryFromBytes_encode hkk.1 hkk.2]
  rcases hs with rfl | rfl
  · exact (Store.Holds1.storedKey (s := m.next cfg) h').trans hkey
  · exact (Store.Holds1.storedKey (s := (m.next cfg).relaunch) h'.relaunch).trans hkey

/-- The authorized key does not change while a review is pending. -/
theorem key_pending {cfg : Config} {s : Dev} {es : List (Env × Event)} {a b c : List Moment} {m0 m : Moment}
    {v : View} (h : s.trace cfg es = a ++ m0 :: b ++ m :: c) (ho : m0.Opens cfg v)
    (hv : ∀ x ∈ b, x.st.view = some v ∧ ∀ w, ¬ x.Opens cfg w) (hm : m.st.view = some v) :
    m.st.storedKey = m0.st.storedKey := by
  have h : s.trace cfg es = a ++ m0 :: (b ++ m :: c) := by rw [h]; simp
  have h1 := Dev.trace_key_kept h (fun x hx => (hv x hx).1) hm
  have h2 : (m0.next cfg).key = m0.st.key := Dev.step_key_kept (v := v) ho.view
  exact Dev.storedKey_congr (h1.trans h2)

/-! ### Authorization -/

/-- The instructions that ask for an authorization, its removal, and the authorized key. -/
def authorizeIns : List UInt8 := [0x01, 0xA1]
def deauthorizeIns : List UInt8 := [0x0C, 0xAC]
def queryIns (withCurve : Bool) : List UInt8 := if withCurve then [0x0D, 0xAD] else [0x07, 0xA7]

theorem command_manage {b : Build} {ins : UInt8} :
    (command b ins = some .authorize → b = .baking ∧ ins ∈ authorizeIns) ∧
    (command b ins = some .deauthorize → b = .baking ∧ ins ∈ deauthorizeIns) ∧
    (command b ins = some (.queryAuth true) → b = .baking ∧ ins ∈ queryIns true) ∧
    (command b ins = some (.queryAuth false) → b = .baking ∧ ins ∈ queryIns false) ∧
    (command b ins = some .setup → b = .baking ∧ ins = 0x0A) := by
  have : ∀ n : Fin 256, (command b (UInt8.ofNat n) = some .authorize → b = .baking ∧ UInt8.ofNat n ∈ authorizeIns) ∧
    (command b (UInt8.ofNat n) = some .deauthorize → b = .baking ∧ UInt8.ofNat n ∈ deauthorizeIns) ∧
    (command b (UInt8.ofNat n) = some (.queryAuth true) → b = .baking ∧ UInt8.ofNat n ∈ queryIns true) ∧
    (command b (UInt8.ofNat n) = some (.queryAuth false) → b = .baking ∧ UInt8.ofNat n ∈ queryIns false) ∧
    (command b (UInt8.ofNat n) = some .setup → b = .baking ∧ UInt8.ofNat n = 0x0A) := by
    cases b <;> decide +kernel
  exact forall_u8 (P := fun ins => (command b ins = some .authorize → b = .baking ∧ ins ∈ authorizeIns) ∧
    (command b ins = some .deauthorize → b = .baking ∧ ins ∈ deauthorizeIns) ∧
    (command b ins = some (.queryAuth true) → b = .baking ∧ ins ∈ queryIns true) ∧
    (command b ins = some (.queryAuth false) → b = .baking ∧ ins ∈ queryIns false) ∧
    (command b ins = some .setup → b = .baking ∧ ins = 0x0A)) this ins

/-- The moment is the receipt of an APDU with this instruction and these parameters. -/
structure Requests (m : Moment) (ins p1 p2 : UInt8) : Prop where
  ex : ∃ buf rx, m.ev = .apdu buf rx ∧ buf[1]? = some ins ∧ buf.getD 2 0 = p1 ∧ buf.getD 3 0 = p2

/-- The moment is the receipt of an APDU with this data. -/
structure HasData (m : Moment) (data : Bytes) : Prop where
  ex : ∃ buf rx, m.ev = .apdu buf rx ∧ apduPayload buf = some data

/-- The items of the reviews. -/
def manageReview (kind : String) (acc : Account) : List (String × Shown) :=
  [("Type", .words kind), ("Address", .account acc)]

theorem Dev.afterWrite_success {s : Dev} {r : WriteRes} {e : ApduError} (he : e ≠ .success) {k : Dev → Res} {d : Bytes}
    (h : (s.afterWrite r e k).deliver.2.reply = some (d ++ [0x90, 0x00])) :
    (k s).deliver.2.reply = some (d ++ [0x90, 0x00]) := by
  unfold Dev.afterWrite at h
  cases r with
  | ok => exact h
  | err => exact absurd h (fun h => Res.Bad.reply (Dev.fail_fails s e he).bad d h)
  | powerLoss => cases h
  | panic => cases h

theorem Dev.ok_reply {s : Dev} {b d : Bytes} (h : (s.ok b).deliver.2.reply = some (d ++ [0x90, 0x00])) : d = b := by
  have e : (s.ok b).deliver.2.reply = some (b ++ [0x90, 0x00]) := by
    have : statusWord .success = [0x90, 0x00] := by decide
    simp only [Dev.ok, Res.deliver, this]
  rw [e] at h
  exact (List.append_cancel_right (Option.some.inj h)).symm

theorem Approves.reply {cfg : Config} {s : Dev} {es : List (Env × Event)} {past rest : List Moment} {m : Moment}
    (h : s.trace cfg es = past ++ m :: rest) {v : View} (ha : Approves m.st m.ev v) :
    m.out.reply = (v.accept m.env m.st.idle).deliver.2.reply := by
  obtain ⟨ea, eb, rfl, _, _, _, hout, _⟩ := Dev.trace_split h
  rw [hout, (ha.step (cfg := cfg) m.env).2.2]

/-- C58, authorization: an approved authorize review was opened by the last request that opened one, a command with the
curve and path in its data; the user was shown the words and the address of the key there. If it is answered with success,
the reply is the public key and this curve and path are authorized, also after a restart. -/
theorem C58_authorize (cfg : Config) (new : NewDevice) (es : List (Env × Event)) (hes : ∀ e ∈ es, e.1.keyF.Detected)
    (hlen : es.length < 2 ^ 64) (cr : Crypto) (hs : cr.Sized) (hcr : ∀ e ∈ es, e.1.cr = cr) (past rest : List Moment)
    (m : Moment) (h : (Dev.factory new).trace cfg es = past ++ m :: rest) (k : PathAndCurve) (a : Addr)
    (ha : Approves m.st m.ev (.authorize k a)) :
    ∃ before m0 b ins p1 key acc, past = before ++ m0 :: b ∧ (∀ y ∈ b, ∀ w, ¬ y.Opens cfg w) ∧
      cfg.build = .baking ∧ ins ∈ authorizeIns ∧ p1 ≠ 0 ∧
      Requests m0 ins p1 (curveCode k.curve) ∧ HasData m0 (UInt8.ofNat k.path.length :: k.path.flatMap be32) ∧
      IsAccount cr k key acc ∧ Reviewed cfg cr b m (manageReview "Authorize Baking" acc) ∧
      (m.Success → m.out.reply = some (UInt8.ofNat key.length :: key ++ [0x90, 0x00]) ∧
        ∀ s, s = m.next cfg ∨ s = (m.next cfg).relaunch → s.storedKey = some k) := by
  obtain ⟨before, m0, b, rfl, ho, hb, hc0, hcm, hrev⟩ := reviewed h hs hcr ha
  obtain ⟨buf, rx, c, p, u, hrec, hop, -⟩ := ho.ex
  obtain ⟨ins, hi, hc⟩ := hrec.cmd
  cases hop with
  | authorize h1 hcv hpl hr haddr =>
    rw [hc0] at haddr
    obtain ⟨key, acc, hacc, hren⟩ := newAddr_account hs haddr
    obtain ⟨hbld, hins⟩ := command_manage.1 hc
    refine ⟨before, m0, b, ins, _, key, acc, rfl, fun y hy => (hb y hy).2, hbld, hins, ?_,
      ⟨buf, rx, hrec.ev, hi, rfl, curveCode_of hcv⟩, ⟨buf, rx, hrec.ev, ?_⟩, hacc, hrev _ ?_ ?_ ?_, ?_⟩
    · intro h0; rw [h0] at h1; exact absurd h1 (by decide)
    · rw [hpl, (Path.read_ok.mp hr).2.2.2]
    · simp [manageReview]
    · simp only [manageReview, List.forall_mem_cons]
      exact ⟨plain_words (by decide +kernel) (by decide +kernel),
        plain_text (by decide +kernel) (fun _ h => by cases h), fun _ h => by cases h⟩
    · intro mem
      refine ⟨rfl, fun n e he => ?_⟩
      match n, he with
      | 0, he => cases he; exact renders_words rfl
      | 1, he => cases he; exact hren "Address"
    · intro hsu
      refine ⟨?_, fun s hs => key_after hes hlen h ha rfl hsu s hs⟩
      obtain ⟨d, hd⟩ := hsu
      have hd' := hd
      rw [ha.reply h] at hd'
      simp only [View.accept, hcm, hacc.derived] at hd'
      rw [hd, Dev.ok_reply (Dev.afterWrite_success (by decide) hd')]
      rfl

/-- The reviews that show the words and the address. -/
theorem presents_manage {cr : Crypto} {kind : String} {acc : Account} {a : Addr} {w : Viewer}
    (hren : ∀ title, Renders cr (do return ⟨ascii title, ← a.base58⟩) (title, .account acc))
    (hk : visible (cstr kind) = ascii kind) (hn : w.numItems = .ok 2)
    (h0 : w.item 0 = .ok ⟨ascii "Type", cstr kind⟩) (h1 : w.item 1 = do return ⟨ascii "Address", ← a.base58⟩) :
    Presents cr w (manageReview kind acc) := by
  refine ⟨hn, fun n e he => ?_⟩
  match n, he with
  | 0, he => cases he; exact h0 ▸ renders_words hk
  | 1, he => cases he; exact h1 ▸ hren "Address"

theorem plain_manage {kind : String} {acc : Account} (hk : Printable (ascii kind)) :
    ∀ e ∈ manageReview kind acc, Plain e := by
  simp only [manageReview, List.forall_mem_cons]
  exact ⟨plain_words (by decide +kernel) hk,
    plain_text (by decide +kernel) (fun _ h => by cases h), fun _ h => by cases h⟩

/-- C58, removal of the authorization: an approved de-authorize review was opened by the last request that opened one; the
user was shown the words and the address of the key that was authorized then, and still was at the approval. If it is
answered with success, no key is authorized, also after a restart. -/
theorem C58_deauthorize (cfg : Config) (new : NewDevice) (es : List (Env × Event)) (hes : ∀ e ∈ es, e.1.keyF.Detected)
    (hlen : es.length < 2 ^ 64) (cr : Crypto) (hs : cr.Sized) (hcr : ∀ e ∈ es, e.1.cr = cr) (past rest : List Moment)
    (m : Moment) (h : (Dev.factory new).trace cfg es = past ++ m :: rest) (a : Addr)
    (ha : Approves m.st m.ev (.deauthorize a)) :
    ∃ before m0 b ins p1 p2 k key acc, past = before ++ m0 :: b ∧ (∀ y ∈ b, ∀ w, ¬ y.Opens cfg w) ∧
      cfg.build = .baking ∧ ins ∈ deauthorizeIns ∧ p1 ≠ 0 ∧ Requests m0 ins p1 p2 ∧
      m.st.storedKey = some k ∧ IsAccount cr k key acc ∧
      Reviewed cfg cr b m (manageReview "DeAuthorize Baking" acc) ∧
      (m.Success → m.out.reply = some [0x90, 0x00] ∧
        ∀ s, s = m.next cfg ∨ s = (m.next cfg).relaunch → s.storedKey = none) := by
  obtain ⟨before, m0, b, rfl, ho, hb, hc0, hcm, hrev⟩ := reviewed h hs hcr ha
  have hkp := key_pending h ho hb ha.view
  obtain ⟨buf, rx, c, p, u, hrec, hop, -⟩ := ho.ex
  obtain ⟨ins, hi, hc⟩ := hrec.cmd
  cases hop with
  | deauthorize h1 hk haddr =>
    rw [hc0] at haddr
    obtain ⟨key, acc, hacc, hren⟩ := newAddr_account hs haddr
    obtain ⟨hbld, hins⟩ := command_manage.2.1 hc
    refine ⟨before, m0, b, ins, _, _, _, key, acc, rfl, fun y hy => (hb y hy).2, hbld, hins, ?_,
      ⟨buf, rx, hrec.ev, hi, rfl, rfl⟩, hkp.trans hk, hacc,
      hrev _ (by simp [manageReview]) (plain_manage (by decide +kernel))
        (fun mem => presents_manage hren rfl rfl rfl rfl), ?_⟩
    · intro h0; rw [h0] at h1; exact absurd h1 (by decide)
    · intro hsu
      refine ⟨?_, fun s hs => key_after hes hlen h ha rfl hsu s hs⟩
      obtain ⟨d, hd⟩ := hsu
      have hd' := hd
      rw [ha.reply h] at hd'
      rw [hd, Dev.ok_reply (Dev.afterWrite_success (by decide) hd')]
      rfl

/-- C58, query with a review: an approved query was opened by the last request that opened a review; the user was shown
the words and the address of the authorized key, and the reply is its path, after the curve if the command is the one that
returns it. -/
theorem C58_query (cfg : Config) (new : NewDevice) (es : List (Env × Event)) (cr : Crypto) (hs : cr.Sized)
    (hcr : ∀ e ∈ es, e.1.cr = cr) (past rest : List Moment)
    (m : Moment) (h : (Dev.factory new).trace cfg es = past ++ m :: rest) (k : PathAndCurve) (a : Addr) (wc : Bool)
    (ha : Approves m.st m.ev (.query k a wc)) :
    ∃ before m0 b ins p1 p2 key acc, past = before ++ m0 :: b ∧ (∀ y ∈ b, ∀ w, ¬ y.Opens cfg w) ∧
      cfg.build = .baking ∧ ins ∈ queryIns wc ∧ p1 ≠ 0 ∧ Requests m0 ins p1 p2 ∧
      m.st.storedKey = some k ∧ IsAccount cr k key acc ∧
      Reviewed cfg cr b m (manageReview "Query Authorized" acc) ∧
      m.out.reply = some ((if wc then [curveCode k.curve] else []) ++
        (UInt8.ofNat k.path.length :: k.path.flatMap be32) ++ [0x90, 0x00]) := by
  obtain ⟨before, m0, b, rfl, ho, hb, hc0, hcm, hrev⟩ := reviewed h hs hcr ha
  have hkp := key_pending h ho hb ha.view
  obtain ⟨buf, rx, c, p, u, hrec, hop, -⟩ := ho.ex
  obtain ⟨ins, hi, hc⟩ := hrec.cmd
  cases hop with
  | query h1 hk haddr =>
    rw [hc0] at haddr
    obtain ⟨key, acc, hacc, hren⟩ := newAddr_account hs haddr
    obtain ⟨hbld, hins⟩ : cfg.build = .baking ∧ ins ∈ queryIns wc := by
      cases wc
      · exact command_manage.2.2.2.1 hc
      · exact command_manage.2.2.1 hc
    refine ⟨before, m0, b, ins, _, _, key, acc, rfl, fun y hy => (hb y hy).2, hbld, hins, ?_,
      ⟨buf, rx, hrec.ev, hi, rfl, rfl⟩, hkp.trans hk, hacc,
      hrev _ (by simp [manageReview]) (plain_manage (by decide +kernel))
        (fun mem => presents_manage hren rfl rfl rfl rfl), ?_⟩
    · intro h0; rw [h0] at h1; exact absurd h1 (by decide)
    · rw [ha.reply h]
      simp only [View.accept, Dev.ok, Res.deliver]
      have hcc : k.curve.toByte = curveCode k.curve := by cases k.curve <;> rfl
      rw [hcc]
      rfl

/-! ### Setup -/

/-- What is shown for a chain id. -/
def chainShown (id : UInt32) : Shown :=
  if id = 0 then .words "any" else if id = 0x7A06A770 then .words "mainnet" else .chain id

/-- The items of a setup. -/
def setupReview (acc : Account) (id l t : UInt32) : List (String × Shown) :=
  [("Type", .words "Setup Baking"), ("Address", .account acc), ("Chain", chainShown id),
   ("Main Chain HWM", .level l), ("Test Chain HWM", .level t)]

theorem renders_chain (cr : Crypto) (id : UInt32) (title : String) :
    Renders cr (do return ⟨ascii title, ← (ChainID.ofU32 id).alias cr⟩) (title, chainShown id) := by
  unfold ChainID.ofU32 chainShown mainnetChainId
  by_cases h0 : id = 0
  · rw [if_pos h0, if_pos h0]
    exact renders_words rfl
  · rw [if_neg h0, if_neg h0]
    by_cases h1 : id = 0x7A06A770
    · rw [if_pos h1, if_pos h1]
      exact renders_words rfl
    · rw [if_neg h1, if_neg h1]
      have : RendersText cr (chainIdText cr id) (.chain id) :=
        rendersText_checked (fun _ h => h) trivial fun _ hl => base58_fits_chain (by rw [hl, be32_length]; rfl)
      exact this.item title

theorem renders_level {cr : Crypto} {title : String} {l : UInt32} :
    Renders cr (.ok ⟨ascii title, decimal l.toNat⟩) (title, .level l) :=
  renders_const (by rw [decimal_visible]; exact decimal_isDecimal _) (.inl (decimal_visible _).symm) trivial

theorem plain_setup (acc : Account) (id l t : UInt32) : ∀ e ∈ setupReview acc id l t, Plain e := by
  simp only [setupReview, List.forall_mem_cons]
  refine ⟨plain_words (by decide +kernel) (by decide +kernel),
    plain_text (by decide +kernel) (fun _ h => by cases h), ?_, plain_text (by decide +kernel) (fun _ h => by cases h),
    plain_text (by decide +kernel) (fun _ h => by cases h), fun _ h => by cases h⟩
  unfold chainShown
  split
  · exact plain_words (by decide +kernel) (by decide +kernel)
  · split
    · exact plain_words (by decide +kernel) (by decide +kernel)
    · exact plain_text (by decide +kernel) (fun _ h => by cases h)

/-- The data of a setup: chain id, the two levels, the path; anything may follow. -/
theorem setup_data {p q : Bytes} {n : Nat} (hq : q = slice p 12 n) (hl : 12 ≤ p.length) :
    p = be32 (u32OfBe (slice p 0 4)) ++ be32 (u32OfBe (slice p 4 4)) ++ be32 (u32OfBe (slice p 8 4)) ++ q ++
      p.drop (12 + n) := by
  rw [be32_u32OfBe (slice_length (by omega)), be32_u32OfBe (slice_length (by omega)),
    be32_u32OfBe (slice_length (by omega)), hq]
  unfold slice
  have h1 : p.take 4 ++ (p.drop 4).take 4 = p.take 8 := (List.take_add (i := 4) (j := 4)).symm
  have h2 : p.take 8 ++ (p.drop 8).take 4 = p.take 12 := (List.take_add (i := 8) (j := 4)).symm
  have h3 : p.take 12 ++ (p.drop 12).take n = p.take (12 + n) := (List.take_add).symm
  rw [List.drop_zero, h1, h2, h3, List.take_append_drop]

/-- C58, setup: an approved setup was opened by the last request that opened a review, a command with the chain id, the
two levels and the path in its data; the user was shown these. If it is answered with success, the reply is the public
key, the curve and path are authorized, and the queries report these levels and this chain id, also after a restart. -/
theorem C58_setup (cfg : Config) (new : NewDevice) (es : List (Env × Event))
    (hes : ∀ e ∈ es, e.1.keyF.Detected ∧ ∀ r, (e.1.markF r).Sound)
    (hlen : es.length < 2 ^ 64) (cr : Crypto) (hs : cr.Sized) (hcr : ∀ e ∈ es, e.1.cr = cr) (past rest : List Moment)
    (m : Moment) (h : (Dev.factory new).trace cfg es = past ++ m :: rest) (k : PathAndCurve) (a : Addr)
    (l t : UInt32) (ch : ChainID) (ha : Approves m.st m.ev (.setup k a l t ch)) :
    ∃ before m0 b p1 id extra key acc, past = before ++ m0 :: b ∧ (∀ y ∈ b, ∀ w, ¬ y.Opens cfg w) ∧
      cfg.build = .baking ∧ Requests m0 0x0A p1 (curveCode k.curve) ∧
      HasData m0 (be32 id ++ be32 l ++ be32 t ++ (UInt8.ofNat k.path.length :: k.path.flatMap be32) ++ extra) ∧
      IsAccount cr k key acc ∧ Reviewed cfg cr b m (setupReview acc id l t) ∧
      (m.Success → m.out.reply = some (UInt8.ofNat key.length :: key ++ [0x90, 0x00]) ∧
        ∀ s, s = m.next cfg ∨ s = (m.next cfg).relaunch → s.storedKey = some k ∧ Reports cfg s l t id) := by
  obtain ⟨before, m0, b, rfl, ho, hb, hc0, hcm, hrev⟩ := reviewed h hs hcr ha
  obtain ⟨buf, rx, c, p, u, hrec, hop, -⟩ := ho.ex
  obtain ⟨ins, hi, hc⟩ := hrec.cmd
  cases hop with
  | @setup _ pl _ hcv hpl hl hn hr haddr =>
    rw [hc0] at haddr
    obtain ⟨key, acc, hacc, hren⟩ := newAddr_account hs haddr
    obtain ⟨hbld, rfl⟩ := command_manage.2.2.2.2 hc
    refine ⟨before, m0, b, _, u32OfBe (slice pl 0 4), pl.drop (12 + (1 + 4 * (pl.getD 12 0).toNat)), key, acc, rfl,
      fun y hy => (hb y hy).2, hbld, ⟨buf, rx, hrec.ev, hi, rfl, curveCode_of hcv⟩, ⟨buf, rx, hrec.ev, ?_⟩, hacc,
      hrev _ (by simp [setupReview]) (plain_setup _ _ _ _) ?_, ?_⟩
    · rw [hpl]
      exact congrArg some (setup_data (Path.read_ok.mp hr).2.2.2.symm (by omega))
    · intro mem
      refine ⟨rfl, fun n e he => ?_⟩
      match n, he with
      | 0, he => cases he; exact renders_words rfl
      | 1, he => cases he; exact hren "Address"
      | 2, he => cases he; exact renders_chain cr _ "Chain"
      | 3, he => cases he; exact renders_level
      | 4, he => cases he; exact renders_level
    · intro hsu
      refine ⟨?_, fun s hs' => ?_⟩
      · obtain ⟨d, hd⟩ := hsu
        have hd' := hd
        rw [ha.reply h] at hd'
        simp only [View.accept, hcm, hacc.derived] at hd'
        rw [hd, Dev.ok_reply (Dev.afterWrite_success (by decide) (Dev.afterWrite_success (by decide)
          (Dev.afterWrite_success (by decide) (Dev.afterWrite_success (by decide) hd'))))]
        rfl
      · have := C48_setup_takes_effect cfg new es hes hlen _ rest m h _ _ _ _ _ ha hsu s hs'
        rwa [ChainID.ofU32_toU32] at this

namespace Demo

/-- All four reviews: authorize, query, de-authorize, setup. -/
def managing : List (Env × Event) :=
  authorize ++ (ok <| apdu 0xAD 1 0 [] :: List.replicate 3 .right ++ [.both]) ++ deauthorize ++
    ok (apdu 0x0A 0 0 ([1, 2, 3, 4] ++ be32 5 ++ be32 70 ++ keyPath) :: List.replicate 6 .right ++ [.both])

/-- The kind of the approved review. -/
def kindOf : Option View → Nat
  | some (.authorize ..) => 1
  | some (.query ..) => 2
  | some (.deauthorize ..) => 3
  | some (.setup ..) => 4
  | _ => 0

set_option maxRecDepth 100000 in
set_option synthInstance.maxSize 1000 in
/-- The hypotheses of the theorems hold at the approvals in `managing`, all answered with success; and some of what the
user read. -/
example :
    let t := fresh.trace bakingApp managing
    (∀ e ∈ managing, e.1.keyF.Detected) ∧ (∀ e ∈ managing, e.1.cr = fine.cr) ∧
    ([4, 9, 14, 22].map fun i => t[i]?.map fun m => kindOf (approved m.st m.ev)) = [some 1, some 2, some 3, some 4] ∧
    ([4, 9, 14, 22].map fun i => t[i]?.bind fun m => m.out.reply.map fun r => (r.length, r.drop (r.length - 2))) =
      [some (36, [0x90, 0x00]), some (12, [0x90, 0x00]), some (2, [0x90, 0x00]), some (36, [0x90, 0x00])] ∧
    (t.map fun m => decide (m.ev.packet bakingApp.build = none ∧ m.st.zui.Plain)) = List.replicate 23 true ∧
    (t[1]?.map fun m => m.st.zui.screen) = some (.review (ascii "Type") (ascii "Authorize Baking") []) ∧
    (t[11]?.map fun m => m.st.zui.screen) = some (.review (ascii "Type") (ascii "DeAuthorize Bakin") (ascii "g")) ∧
    (t[16]?.map fun m => m.st.zui.screen) = some (.review (ascii "Type") (ascii "Setup Baking") []) ∧
    (t[19]?.map fun m => m.st.zui.screen) = some (.review (ascii "Chain") (ascii "NetXHAoG8Rx3N5d") []) ∧
    (t[20]?.map fun m => m.st.zui.screen) = some (.review (ascii "Main Chain HWM") (ascii "5") []) ∧
    (t[21]?.map fun m => m.st.zui.screen) = some (.review (ascii "Test Chain HWM") (ascii "70") []) := by
  refine ⟨by decide +kernel, fun e he => ?_, by decide +kernel⟩
  simp only [managing, authorize, deauthorize, ok, List.mem_append, List.mem_map] at he
  rcases he with ((⟨_, _, rfl⟩ | ⟨_, _, rfl⟩) | ⟨_, _, rfl⟩) | ⟨_, _, rfl⟩ <;> rfl

end Demo

end Tezos
