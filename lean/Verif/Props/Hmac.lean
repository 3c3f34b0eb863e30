import Verif.Props.Hash
import Verif.Props.Sys
/-
C78: the command from which bakers make the nonces they commit to. What it answers, and that it always answers the same.
-/
namespace Tezos
open Spec

/-- The constant that is signed to make the key of an HMAC. -/
def nonceSeed : Bytes :=
  [0x6c, 0x4e, 0x7e, 0x70, 0x6c, 0x54, 0xd3, 0x67, 0xc8, 0x7a, 0x8d, 0x89, 0xc1, 0x6a, 0xdf, 0xe0,
   0x6c, 0xb5, 0x68, 0x0c, 0xb7, 0xd1, 0x8e, 0x62, 0x5a, 0x90, 0x47, 0x5e, 0xc0, 0xdb, 0xdb, 0x9f]

/-- `d` is the HMAC of a message under the SHA-512 hash of the signature of the constant. -/
def IsHmacOf (cr : Crypto) (c : Curve) (path : Path) (msg d : Bytes) : Prop :=
  ∃ sig key, cr.sign c path nonceSeed = some sig ∧ cr.sha512 sig = some key ∧ cr.hmac key msg = some d

/-- The data of an HMAC command: a path of 1 to 10 components and a message. -/
structure AsksHmac (p2 : UInt8) (data : Bytes) (c : Curve) (path : Path) (msg : Bytes) : Prop where
  curve : p2 = curveCode c
  short : 1 ≤ path.length ∧ path.length ≤ 10
  data : data = UInt8.ofNat path.length :: path.flatMap be32 ++ msg

/-- Data that ask for an HMAC, as the handler takes them apart. -/
theorem AsksHmac.parts {p2 : UInt8} {data : Bytes} {c : Curve} {path : Path} {msg : Bytes}
    (h : AsksHmac p2 data c path msg) :
    Curve.ofByte p2 = some c ∧ data.length ≠ 0 ∧ ¬ data.length < 1 + 4 * (data.getD 0 0).toNat ∧
    Path.read bip32MaxLength (data.take (1 + 4 * (data.getD 0 0).toNat)) = .ok path ∧
    data.drop (1 + 4 * (data.getD 0 0).toNat) = msg := by
  obtain ⟨rfl, hs, rfl⟩ := h
  have hg : ((UInt8.ofNat path.length :: path.flatMap be32 ++ msg).getD 0 0).toNat = path.length := by
    show (UInt8.ofNat path.length).toNat = path.length
    exact UInt8.toNat_ofNat_of_lt' (by show path.length < 256; omega)
  have hl : (UInt8.ofNat path.length :: path.flatMap be32).length = 1 + 4 * path.length := by
    rw [List.length_cons, flatMap_be32_length]; omega
  rw [hg]
  refine ⟨curveCode_ofByte c, by simp, by rw [List.length_append, hl]; omega, ?_, ?_⟩
  · rw [List.take_append_of_le_length (by omega), List.take_of_length_le (by omega)]
    exact Path.read_ok.mpr ⟨hs.1, hs.2, by omega, rfl⟩
  · rw [← hl, List.drop_left]

/-- C78: instruction 0x0E of the baking app answers with the HMAC of the message under the key made from the named key,
at once and without any other effect; it is refused if it names no key. -/
theorem C78_command (cfg : Config) (hb : cfg.build = .baking) (env : Env) (s : Dev) (hrun : s.running = true)
    (ev : Event) (p1 p2 : UInt8) (data : Bytes) (h : Carries ev 0x0E p1 p2 data) :
    AnsweredWith s (s.step cfg env ev) fun d => ∃ c path msg, AsksHmac p2 data c path msg ∧
      IsHmacOf env.cr c path msg d := by
  rw [h.step (c := .hmac) hrun (by rw [hb]; decide)]
  simp only [Dev.exec]
  unfold Dev.cmdHmac
  cases hc : Curve.ofByte p2 with
  | none =>
    refine .fail (by decide) ?_
    rintro d ⟨c, path, msg, ha, -⟩
    rw [ha.parts.1] at hc
    cases hc
  | some c =>
    simp only
    by_cases h0 : data.length = 0
    · rw [if_pos h0]
      refine .fail (by decide) ?_
      rintro d ⟨c, path, msg, ha, -⟩
      exact ha.parts.2.1 h0
    · rw [if_neg h0]
      by_cases h1 : data.length < 1 + 4 * (data.getD 0 0).toNat
      · rw [if_pos h1]
        refine .fail (by decide) ?_
        rintro d ⟨c, path, msg, ha, -⟩
        exact ha.parts.2.2.1 h1
      · rw [if_neg h1]
        cases hp : Path.read bip32MaxLength (data.take (1 + 4 * (data.getD 0 0).toNat)) with
        | error e =>
          refine .fail (by decide) ?_
          rintro d ⟨c, path, msg, ha, -⟩
          rw [ha.parts.2.2.2.1] at hp
          cases hp
        | ok path =>
          simp only
          have same : ∀ {c' path' msg'}, AsksHmac p2 data c' path' msg' →
              c' = c ∧ path' = path ∧ msg' = data.drop (1 + 4 * (data.getD 0 0).toNat) := by
            intro c' path' msg' ha
            obtain ⟨e1, -, -, e2, e3⟩ := ha.parts
            rw [e1] at hc
            rw [e2] at hp
            cases hc
            cases hp
            exact ⟨rfl, rfl, e3.symm⟩
          have hr := Path.read_ok.mp hp
          have asks : AsksHmac p2 data c path (data.drop (1 + 4 * (data.getD 0 0).toNat)) :=
            ⟨curveCode_of hc, ⟨hr.1, hr.2.1⟩, by rw [← hr.2.2.2, List.take_append_drop]⟩
          cases hsig : env.cr.sign c path hmacKeySha256 with
          | none =>
            refine .fail (by decide) ?_
            rintro d ⟨c', path', msg', ha, sig, key, e, -⟩
            obtain ⟨rfl, rfl, rfl⟩ := same ha
            have e' : env.cr.sign c' path' hmacKeySha256 = some sig := e
            rw [hsig] at e'
            cases e'
          | some sig =>
            simp only
            cases hk : env.cr.sha512 sig with
            | none =>
              refine .fail (by decide) ?_
              rintro d ⟨c', path', msg', ha, sig', key, e, e2, -⟩
              obtain ⟨rfl, rfl, rfl⟩ := same ha
              obtain rfl : sig = sig' := Option.some.inj (hsig.symm.trans e)
              rw [hk] at e2
              cases e2
            | some key =>
              simp only
              cases hm : env.cr.hmac key (data.drop (1 + 4 * (data.getD 0 0).toNat)) with
              | none =>
                refine .fail (by decide) ?_
                rintro d ⟨c', path', msg', ha, sig', key', e, e2, e3⟩
                obtain ⟨rfl, rfl, rfl⟩ := same ha
                obtain rfl : sig = sig' := Option.some.inj (hsig.symm.trans e)
                obtain rfl : key = key' := Option.some.inj (hk.symm.trans e2)
                rw [hm] at e3
                cases e3
              | some mac =>
                refine .ok fun d => ⟨?_, ?_⟩
                · rintro ⟨c', path', msg', ha, sig', key', e, e2, e3⟩
                  obtain ⟨rfl, rfl, rfl⟩ := same ha
                  obtain rfl : sig = sig' := Option.some.inj (hsig.symm.trans e)
                  obtain rfl : key = key' := Option.some.inj (hk.symm.trans e2)
                  exact Option.some.inj (e3.symm.trans hm)
                · rintro rfl
                  exact ⟨c, path, _, asks, sig, key, hsig, hk, hm⟩

/-- The path and the message of a request are determined by its data. -/
theorem AsksHmac.unique {p2 p2' : UInt8} {data : Bytes} {c c' : Curve} {path path' : Path} {msg msg' : Bytes}
    (h : AsksHmac p2 data c path msg) (h' : AsksHmac p2' data c' path' msg') : path = path' ∧ msg = msg' := by
  have e1 := h.parts.2.2.2
  have e2 := h'.parts.2.2.2
  refine ⟨?_, e1.2.symm.trans e2.2⟩
  have := e1.1.symm.trans e2.1
  cases this
  rfl

/-- C78, client: if `legacyHMAC` returns success, the app is the baking app and the bytes it returns are the HMAC of the
given message under the key made from the given curve and path. -/
theorem C78_client (cfg : Config) (s : Dev) (es : List (Env × Event)) (past t rest : List Moment)
    (h : s.trace cfg es = past ++ (t ++ rest)) (js : Js) (hjs : js.ReadsDecimal) (path : Bytes) (cs : List Component)
    (hcs : IsPathText path cs) (curve : UInt8) (message : Bytes) (call : Client (Response Bytes))
    (hcall : legacyHmac js path curve message = some call) (r : Response Bytes) (ht : Talk call t r)
    (hr : r.returnCode = 0x9000) :
    cfg.build = .baking ∧ ∃ m ∈ t, ∃ c d, Curve.ofByte curve = some c ∧ r.body = some d ∧
      IsHmacOf m.env.cr c (cs.map Component.bits) message d := by
  simp only [legacyHmac, Option.map_eq_some_iff] at hcall
  obtain ⟨p, hp, rfl⟩ := hcall
  obtain ⟨q, seg, q', d, rfl, -, -, hsu, hbody⟩ := Talk.success h ht hr
  rw [dropStatus_append] at hbody
  have hcmd : ∀ c, command cfg.build 0x0e = some c → cfg.build = .baking ∧ c = .hmac := by
    intro c hc
    cases hb : cfg.build with
    | wallet => rw [hb] at hc; cases hc
    | baking => rw [hb] at hc; cases hc; exact ⟨rfl, rfl⟩
  cases hsu with
  | @atOnce m hc hrun hrep =>
    have h' : s.trace cfg es = (past ++ q) ++ m :: (q' ++ rest) := by rw [h]; simp
    obtain ⟨ea, eb, rfl, _, _, _, hout, _⟩ := Dev.trace_split h'
    rw [hout] at hrep
    obtain ⟨c, hk⟩ := hc.known hrun hrep
    obtain ⟨hb, -⟩ := hcmd c hk
    obtain ⟨c, path', msg, ha, hd⟩ := ((C78_command cfg hb m.env m.st hrun m.ev 0 curve _ hc).data d).mp hrep
    refine ⟨hb, m, by simp, c, d, ha.parts.1, hbody, ?_⟩
    have hsent := sent_path hjs hcs hp
    have hlen := hc.length
    rw [List.length_append, hsent, List.length_cons, flatMap_be32_length] at hlen
    have hdata := ha.data
    rw [hsent] at hdata
    have h1 : UInt8.ofNat (cs.map Component.bits).length = UInt8.ofNat path'.length := (List.cons.inj hdata).1
    have h2 := congrArg UInt8.toNat h1
    rw [UInt8.toNat_ofNat_of_lt' (by show _ < 256; omega),
      UInt8.toNat_ofNat_of_lt' (by show _ < 256; have := ha.short.2; omega)] at h2
    have hasks : AsksHmac curve (p ++ message) c (cs.map Component.bits) message :=
      ⟨ha.curve, by rw [h2]; exact ha.short, by rw [hsent]⟩
    obtain ⟨rfl, rfl⟩ := ha.unique hasks
    exact hd
  | @later m l b v hc ho hb ha hrep =>
    exfalso
    obtain ⟨c, _, _, hk, hrun, hop⟩ := hc.opens ho
    obtain ⟨-, rfl⟩ := hcmd c hk
    cases hop with
    | addr h1 => rcases h1 with h1 | ⟨h1, _⟩ <;> cases h1

/-- C78, nonces can be made again: over any histories of devices with the same keys, two calls of `legacyHMAC` with the
same curve, path and message that return success return the same bytes. -/
theorem C78_reproducible (sys : Sys) (H : HashFns) (cfg cfg' : Config) (s s' : Dev) (es es' : List (Env × Event))
    (hes : ∀ e ∈ es ++ es', e.1.cr.Uses sys ∧ e.1.cr.HashesWith H)
    (past t rest past' t' rest' : List Moment) (h : s.trace cfg es = past ++ (t ++ rest))
    (h' : s'.trace cfg' es' = past' ++ (t' ++ rest')) (js : Js) (hjs : js.ReadsDecimal) (path : Bytes)
    (cs : List Component) (hcs : IsPathText path cs) (curve : UInt8) (message : Bytes)
    (call : Client (Response Bytes)) (hcall : legacyHmac js path curve message = some call)
    (r r' : Response Bytes) (ht : Talk call t r) (ht' : Talk call t' r') (hr : r.returnCode = 0x9000)
    (hr' : r'.returnCode = 0x9000) :
    ∃ c sig, Curve.ofByte curve = some c ∧ sys.sign c (cs.map Component.bits) nonceSeed = some sig ∧
      r.body = some (H.mac (H.of .sha512 sig) message) ∧ r'.body = r.body := by
  have env : ∀ {cfg : Config} {s : Dev} {es0 : List (Env × Event)} {m : Moment}, m ∈ s.trace cfg es0 →
      ∃ e ∈ es0, e.1 = m.env := by
    intro cfg s es0 m hm
    obtain ⟨a, a', ha⟩ := List.append_of_mem hm
    obtain ⟨ea, eb, rfl, -⟩ := Dev.trace_split ha
    exact ⟨(m.env, m.ev), by simp, rfl⟩
  obtain ⟨-, m, hm, c, d, hc, hb, sig, key, e1, e2, e3⟩ :=
    C78_client cfg s es past t rest h js hjs path cs hcs curve message call hcall r ht hr
  obtain ⟨-, m', hm', c', d', hc', hb', sig', key', e1', e2', e3'⟩ :=
    C78_client cfg' s' es' past' t' rest' h' js hjs path cs hcs curve message call hcall r' ht' hr'
  obtain rfl : c = c' := Option.some.inj (hc.symm.trans hc')
  obtain ⟨e, he, hee⟩ := env (m := m) (by rw [h]; simp [hm])
  obtain ⟨e', he', hee'⟩ := env (m := m') (by rw [h']; simp [hm'])
  obtain ⟨u, w⟩ := hes e (List.mem_append_left _ he)
  obtain ⟨u', w'⟩ := hes e' (List.mem_append_right _ he')
  rw [hee] at u w
  rw [hee'] at u' w'
  have s1 := u.2 _ _ _ _ e1
  have s2 := u'.2 _ _ _ _ e1'
  obtain rfl : sig = sig' := Option.some.inj (s1.symm.trans s2)
  refine ⟨c, sig, hc, s1, ?_, ?_⟩
  · rw [hb, w.hmac e3, w.sha512 e2]
  · rw [hb, hb', w.hmac e3, w.sha512 e2, w'.hmac e3', w'.sha512 e2']

/-! ### A concrete case -/

namespace Demo

/-- A nonce is made, a block is signed, the app restarts and the nonce is made again. -/
def noncesAgain : List (Env × Event) :=
  setup 5 ++ ok [apdu 0x0e 0 0 (keyPath ++ [1, 2, 3]), apdu 0xaf 0 0 keyPath, apdu 0xaf 2 0 (tbBlock 7 1), Event.relaunch,
    apdu 0x0e 0 0 (keyPath ++ [1, 2, 3])]

set_option maxRecDepth 100000 in
example :
    let t := (Dev.factory ⟨.large, List.replicate uploadCapacity 0⟩).trace bakingApp noncesAgain
    let sig := (crypto.sign .ed25519 [0x8000002c, 0x800006c1] nonceSeed).getD []
    let nonce : Response Bytes := ⟨0x9000, some (hash 32 (hash 64 sig ++ [1, 2, 3]))⟩
    ((legacyHmac js pathText 0 [1, 2, 3]).bind fun c => play ((t.drop 8).take 1) (.inl c)) = some nonce ∧
    ((legacyHmac js pathText 0 [1, 2, 3]).bind fun c => play ((t.drop 12).take 1) (.inl c)) = some nonce := by
  decide +kernel

end Demo
end Tezos
