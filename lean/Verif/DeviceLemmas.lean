import Verif.Device
import Verif.ConsensusSpec
/-
What each handler can do, as equations: every command either leaves the state alone, or opens a given review, or
writes given records.
-/
set_option linter.unusedSimpArgs false
namespace Tezos

/-- Nothing happened but a direct reply (or an abort): same state, no signature, no review. -/
def Res.Still (s : Dev) (r : Res) : Prop := r.st = s ∧ r.sig = none ∧ ∀ e, r.out ≠ .shown e

theorem Dev.fail_still (s : Dev) (e : ApduError) : (s.fail e).Still s := ⟨rfl, rfl, by simp [Dev.fail]⟩
theorem Dev.ok_still (s : Dev) (b : Bytes) : (s.ok b).Still s := ⟨rfl, rfl, by simp [Dev.ok]⟩
theorem Dev.fault_still (s : Dev) (f : Fault) : (s.fault f).Still s := ⟨rfl, rfl, by simp [Dev.fault]⟩

/-- A failure: as `Still`, and not successful either. -/
def Res.Fails (s : Dev) (r : Res) : Prop := r.st = s ∧ r.sig = none ∧
  ((∃ e, e ≠ .success ∧ r.out = .err e) ∨ ∃ f, r.out = .fault f)

theorem Dev.fail_fails (s : Dev) (e : ApduError) (he : e ≠ .success := by decide) : (s.fail e).Fails s :=
  ⟨rfl, rfl, .inl ⟨e, he, rfl⟩⟩
theorem Dev.fault_fails (s : Dev) (f : Fault) : (s.fault f).Fails s := ⟨rfl, rfl, .inr ⟨f, rfl⟩⟩

theorem Res.Fails.still {s : Dev} {r : Res} (h : r.Fails s) : r.Still s := by
  obtain ⟨h1, h2, ⟨e, _, h3⟩ | ⟨f, h3⟩⟩ := h <;> exact ⟨h1, h2, by rw [h3]; simp⟩

theorem Dev.withRead_cases (s : Dev) (r : ReadRes) (e : ApduError) (k : Bytes → Res)
    (he : e ≠ .success := by decide) :
    (s.withRead r e k).Fails s ∨ ∃ b, r = .ok b ∧ s.withRead r e k = k b := by
  unfold Dev.withRead
  cases r with
  | ok b => exact .inr ⟨b, rfl, rfl⟩
  | err x => exact .inl (s.fail_fails e he)
  | panic => exact .inl (s.fault_fails _)

theorem PathAndCurve.tryFromBytes_error {b : Bytes} {e : ApduError} (h : PathAndCurve.tryFromBytes b = .error e) :
    e ≠ .success := by
  unfold PathAndCurve.tryFromBytes at h
  split at h
  · cases h
  · split at h
    · cases h; decide
    · dsimp only at h
      split at h
      · cases h; decide
      · split at h
        · cases h; decide
        · cases h

/-- The key stored in the key record. -/
def Dev.storedKey (s : Dev) : Option PathAndCurve :=
  match s.key.read with
  | .ok b => match PathAndCurve.tryFromBytes b with
    | .ok k => k
    | .error _ => none
  | _ => none

theorem Dev.withKey_cases (s : Dev) (e e' : ApduError) (k : PathAndCurve → Res)
    (he : e ≠ .success := by decide) (he' : e' ≠ .success := by decide) :
    (s.withKey e e' k).Fails s ∨ ∃ key, s.storedKey = some key ∧ s.withKey e e' k = k key := by
  unfold Dev.withKey Dev.storedKey Dev.withRead
  cases s.key.read with
  | err x => exact .inl (s.fail_fails e he)
  | panic => exact .inl (s.fault_fails _)
  | ok b =>
    simp only
    cases hb : PathAndCurve.tryFromBytes b with
    | error x => exact .inl (s.fail_fails x (PathAndCurve.tryFromBytes_error hb))
    | ok o =>
      cases o with
      | none => exact .inl (s.fail_fails e' he')
      | some key => exact .inr ⟨key, rfl, rfl⟩

theorem Dev.withPath_cases (s : Dev) (n : Nat) (p2 : UInt8) (payload : Option Bytes) (k : PathAndCurve → Res) :
    (s.withPath n p2 payload k).Fails s ∨ ∃ key p, Curve.ofByte p2 = some key.curve ∧ payload = some p ∧
      Path.read n p = .ok key.path ∧ s.withPath n p2 payload k = k key := by
  unfold Dev.withPath
  cases hc : Curve.ofByte p2 with
  | none => exact .inl (s.fail_fails _)
  | some c =>
    cases payload with
    | none => exact .inl (s.fail_fails _)
    | some p =>
      simp only
      cases hp : Path.read n p with
      | error x => exact .inl (s.fail_fails _)
      | ok path => exact .inr ⟨⟨c, path⟩, p, rfl, rfl, hp, rfl⟩

theorem Dev.afterWrite_cases (s : Dev) (r : WriteRes) (e : ApduError) (k : Dev → Res)
    (he : e ≠ .success := by decide) :
    (r ≠ .ok ∧ (s.afterWrite r e k).Fails s) ∨ (r = .ok ∧ s.afterWrite r e k = k s) := by
  unfold Dev.afterWrite
  cases r with
  | ok => exact .inr ⟨rfl, rfl⟩
  | err => exact .inl ⟨by simp, s.fail_fails e he⟩
  | powerLoss => exact .inl ⟨by simp, s.fault_fails _⟩
  | panic => exact .inl ⟨by simp, s.fault_fails _⟩

/-! ### Commands -/

theorem Dev.cmdReset_cases (env : Env) (payload : Option Bytes) (s : Dev) :
    (s.cmdReset env payload).Fails s ∨
    ∃ p, payload = some p ∧ 4 ≤ p.length ∧ s.cmdReset env payload = s.resetHwm env (u32OfBe (p.take 4)) := by
  unfold Dev.cmdReset
  cases payload with
  | none => exact .inl (s.fail_fails _)
  | some p =>
    simp only
    split
    · exact .inl (s.fail_fails _)
    · exact .inr ⟨p, rfl, by omega, rfl⟩

theorem Dev.cmdQueryMain_still (s : Dev) : s.cmdQueryMain.Still s := by
  unfold Dev.cmdQueryMain
  split
  · exact s.ok_still _
  · exact s.ok_still _
  · exact s.fail_still _
  · exact s.fault_still _

theorem Dev.cmdQueryAll_still (s : Dev) : s.cmdQueryAll.Still s := by
  unfold Dev.cmdQueryAll
  split
  · exact s.ok_still _
  · exact s.ok_still _
  · exact s.fail_still _
  · exact s.fault_still _

theorem Dev.cmdAuthorize_cases (env : Env) (p1 p2 : UInt8) (payload : Option Bytes) (s : Dev) :
    (s.cmdAuthorize env p1 p2 payload).Fails s ∨
    ∃ (k : PathAndCurve) (p : Bytes) (a : Addr), 1 ≤ p1 ∧ Curve.ofByte p2 = some k.curve ∧ payload = some p ∧ Path.read bip32MaxLength p = .ok k.path ∧
      newAddr env.cr k.curve k.path = some a ∧ s.cmdAuthorize env p1 p2 payload = s.show env (.authorize k a) := by
  unfold Dev.cmdAuthorize
  split
  · exact .inl (s.fail_fails _)
  · rename_i h1
    rcases s.withPath_cases bip32MaxLength p2 payload _ with h | ⟨k, p, hc, hp, hr, he⟩
    · exact .inl h
    · rw [he]
      cases ha : newAddr env.cr k.curve k.path with
      | none => exact .inl (s.fail_fails _)
      | some a => exact .inr ⟨k, p, a, UInt8.not_lt.mp h1, hc, hp, hr, ha, rfl⟩

theorem Dev.cmdDeauthorize_cases (env : Env) (p1 : UInt8) (s : Dev) :
    (s.cmdDeauthorize env p1).Fails s ∨
    ∃ k a, 1 ≤ p1 ∧ s.storedKey = some k ∧ newAddr env.cr k.curve k.path = some a ∧
      s.cmdDeauthorize env p1 = s.show env (.deauthorize a) := by
  unfold Dev.cmdDeauthorize
  split
  · exact .inl (s.fail_fails _)
  · rename_i h1
    rcases s.withKey_cases .conditionsNotSatisfied .conditionsNotSatisfied _ with h | ⟨k, hk, he⟩
    · exact .inl h
    · rw [he]
      cases ha : newAddr env.cr k.curve k.path with
      | none => exact .inl (s.fail_fails _)
      | some a => exact .inr ⟨k, a, UInt8.not_lt.mp h1, hk, ha, rfl⟩

theorem Dev.cmdQueryAuth_cases (env : Env) (wc : Bool) (p1 : UInt8) (s : Dev) :
    (s.cmdQueryAuth env wc p1).Fails s ∨
    ∃ k a, s.storedKey = some k ∧ newAddr env.cr k.curve k.path = some a ∧
      ((1 ≤ p1 ∧ s.cmdQueryAuth env wc p1 = s.show env (.query k a wc)) ∨
       (p1 = 0 ∧ s.cmdQueryAuth env wc p1 = s.ok ((if wc then [k.curve.toByte] else []) ++ k.path.serialize))) := by
  unfold Dev.cmdQueryAuth
  rcases s.withKey_cases .conditionsNotSatisfied .conditionsNotSatisfied _ with h | ⟨k, hk, he⟩
  · exact .inl h
  · rw [he]
    cases ha : newAddr env.cr k.curve k.path with
    | none => exact .inl (s.fail_fails _)
    | some a =>
      refine .inr ⟨k, a, hk, ha, ?_⟩
      by_cases h1 : p1 ≥ 1
      · exact .inl ⟨h1, by simp only [h1, if_true]⟩
      · refine .inr ⟨?_, by simp only [h1, if_false]; rfl⟩
        have : p1.toNat < 1 := by simpa [UInt8.lt_iff_toNat_lt, UInt8.le_iff_toNat_le] using h1
        exact UInt8.toNat_inj.mp (by simp; omega)

theorem Dev.cmdSetup_cases (env : Env) (p2 : UInt8) (payload : Option Bytes) (s : Dev) :
    (s.cmdSetup env p2 payload).Fails s ∨
    ∃ (k : PathAndCurve) (p : Bytes) (a : Addr), Curve.ofByte p2 = some k.curve ∧ payload = some p ∧ 13 ≤ p.length ∧
      13 + 4 * (p.getD 12 0).toNat ≤ p.length ∧
      Path.read bip32MaxLength (slice p 12 (1 + 4 * (p.getD 12 0).toNat)) = .ok k.path ∧
      newAddr env.cr k.curve k.path = some a ∧
      s.cmdSetup env p2 payload = s.show env (.setup k a (u32OfBe (slice p 4 4)) (u32OfBe (slice p 8 4))
        (ChainID.ofU32 (u32OfBe (slice p 0 4)))) := by
  unfold Dev.cmdSetup
  cases hc : Curve.ofByte p2 with
  | none => exact .inl (s.fail_fails _)
  | some c =>
    cases payload with
    | none => exact .inl (s.fail_fails _)
    | some p =>
      simp only
      split
      · exact .inl (s.fail_fails _)
      · split
        · exact .inl (s.fail_fails _)
        · cases hp : Path.read bip32MaxLength (slice p 12 (1 + 4 * (p.getD 12 0).toNat)) with
          | error x => exact .inl (s.fail_fails _)
          | ok path =>
            simp only
            cases ha : newAddr env.cr c path with
            | none => exact .inl (s.fail_fails _)
            | some a => exact .inr ⟨⟨c, path⟩, p, a, rfl, rfl, by omega, by omega, hp, ha, rfl⟩

theorem Dev.cmdHmac_still (env : Env) (p2 : UInt8) (payload : Option Bytes) (s : Dev) :
    (s.cmdHmac env p2 payload).Still s := by
  unfold Dev.cmdHmac
  cases Curve.ofByte p2 with
  | none => exact s.fail_still _
  | some c =>
    cases payload with
    | none => exact s.fail_still _
    | some p =>
      simp only
      split
      · exact s.fail_still _
      · split
        · exact s.fail_still _
        · cases Path.read bip32MaxLength (p.take (1 + 4 * (p.getD 0 0).toNat)) with
          | error x => exact s.fail_still _
          | ok path =>
            simp only
            cases env.cr.sign c path hmacKeySha256 with
            | none => exact s.fail_still _
            | some sig =>
              simp only
              cases env.cr.sha512 sig with
              | none => exact s.fail_still _
              | some key =>
                simp only
                cases env.cr.hmac key (p.drop (1 + 4 * (p.getD 0 0).toNat)) with
                | none => exact s.fail_still _
                | some mac => exact s.ok_still _

theorem Dev.cmdAddr_cases (env : Env) (confirm : Bool) (p2 : UInt8) (payload : Option Bytes) (s : Dev) :
    (s.cmdAddr env confirm p2 payload).Fails s ∨
    ∃ (k : PathAndCurve) (p key : Bytes) (a : Addr), Curve.ofByte p2 = some k.curve ∧ payload = some p ∧ Path.read 6 p = .ok k.path ∧
      env.cr.publicKey k.curve k.path = some key ∧ Addr.ofKey env.cr k.curve key = some a ∧
      ((confirm = true ∧ s.cmdAddr env confirm p2 payload = s.show env (.addr a key true)) ∨
       (confirm = false ∧ ∃ t, a.base58 = .ok t ∧ s.cmdAddr env confirm p2 payload = s.ok (keyReply key ++ t))) := by
  unfold Dev.cmdAddr
  rcases s.withPath_cases 6 p2 payload _ with h | ⟨k, p, hc, hp, hr, he⟩
  · exact .inl h
  · rw [he]
    cases hk : env.cr.publicKey k.curve k.path with
    | none => exact .inl (s.fail_fails _)
    | some key =>
      simp only
      cases ha : Addr.ofKey env.cr k.curve key with
      | none => exact .inl (s.fail_fails _)
      | some a =>
        simp only
        cases confirm with
        | true => exact .inr ⟨k, p, key, a, hc, hp, hr, hk, ha, .inl ⟨rfl, rfl⟩⟩
        | false =>
          simp only [View.accept]
          cases hb : a.base58 with
          | error x => exact .inl (s.fault_fails _)
          | ok t => exact .inr ⟨k, p, key, a, hc, hp, hr, hk, ha, .inr ⟨by first | rfl | trivial, t, by first | rfl | exact hb, rfl⟩⟩

theorem Dev.cmdGetKey_cases (env : Env) (p2 : UInt8) (payload : Option Bytes) (s : Dev) :
    (s.cmdGetKey env p2 payload).Fails s ∨
    ∃ (k : PathAndCurve) (p key : Bytes), Curve.ofByte p2 = some k.curve ∧ payload = some p ∧ Path.read 6 p = .ok k.path ∧
      env.cr.publicKey k.curve k.path = some key ∧ s.cmdGetKey env p2 payload = s.ok (keyReply key) := by
  unfold Dev.cmdGetKey
  rcases s.withPath_cases 6 p2 payload _ with h | ⟨k, p, hc, hp, hr, he⟩
  · exact .inl h
  · rw [he]
    cases hk : env.cr.publicKey k.curve k.path with
    | none => exact .inl (s.fail_fails _)
    | some key => exact .inr ⟨k, p, key, hc, hp, hr, hk, rfl⟩

/-- What `start_sign` opens. -/
theorem Dev.startSign_cases (env : Env) (h : Bool) (p2 : UInt8) (first data : Bytes) (ref : MemRef) (s : Dev) :
    (s.startSign env h p2 first data ref).Fails s ∨
    ∃ k : PathAndCurve, Curve.ofByte p2 = some k.curve ∧ Path.read bip32MaxLength first = .ok k.path ∧
      ((s.startSign env h p2 first data ref).Fails { s with path := some (k.path, k.curve) } ∨
       ∃ digest, env.cr.blake2b 32 data = some digest ∧
        ((∃ rem ops, data = 0x03 :: rem ∧ operationNew rem = .ok ops ∧
          s.startSign env h p2 first data ref = { s with path := some (k.path, k.curve) }.show env
            (.sign h digest (some ⟨ref.inFlash, ref.off + 1, ref.len - 1⟩) data)) ∨
         (∃ rem, data = 0x05 :: rem ∧
          s.startSign env h p2 first data ref = { s with path := some (k.path, k.curve) }.show env
            (.sign h digest none data)))) := by
  unfold Dev.startSign
  rcases s.withPath_cases bip32MaxLength p2 (some first) _ with hf | ⟨k, p, hc, hp, hr, he⟩
  · exact .inl hf
  · cases hp
    rw [he]
    refine .inr ⟨k, hc, hr, ?_⟩
    simp only
    cases hb : env.cr.blake2b 32 data with
    | none => exact .inl (Dev.fail_fails _ _)
    | some digest =>
      simp only
      cases hpre : Preamble.parse data with
      | error x => cases x <;> exact .inl (by first | exact Dev.fail_fails _ _ | exact Dev.fault_fails _ _)
      | ok rp =>
        obtain ⟨rem, p⟩ := rp
        obtain ⟨b, hd, hb'⟩ := preamble_parse_ok hpre
        cases p with
        | operation =>
          simp only
          have hb3 : b = 0x03 := by simpa using hb'
          cases ho : operationNew rem with
          | error x => cases x <;> exact .inl (by first | exact Dev.fail_fails _ _ | exact Dev.fault_fails _ _)
          | ok ops => exact .inr ⟨digest, rfl, .inl ⟨rem, ops, by rw [hd, hb3], ho, rfl⟩⟩
        | michelson =>
          have hb5 : b = 0x05 := by simpa using hb'
          exact .inr ⟨digest, rfl, .inr ⟨rem, by rw [hd, hb5], rfl⟩⟩
        | _ => exact .inl (Dev.fail_fails _ _)

/-- `bakingSign` gives a signature with the stored key or fails. -/
theorem Dev.bakingSign_cases (env : Env) (h : Bool) (digest msg : Bytes) (s : Dev) :
    (s.bakingSign env h digest msg).Fails s ∨
    ∃ k sig, s.storedKey = some k ∧ env.cr.sign k.curve k.path digest = some sig ∧
      s.bakingSign env h digest msg = ⟨s, .ok (sigReply h digest sig), some ⟨k.curve, k.path, digest, msg, sig⟩⟩ := by
  unfold Dev.bakingSign
  rcases s.withKey_cases .executionError .conditionsNotSatisfied _ with hf | ⟨k, hk, he⟩
  · exact .inl hf
  · rw [he]
    cases hs : env.cr.sign k.curve k.path digest with
    | none => exact .inl (s.fail_fails _)
    | some sig => exact .inr ⟨k, sig, hk, hs, rfl⟩

/-- `autoSign` does nothing, or writes the new watermark and then fails or signs. -/
theorem Dev.autoSign_cases (env : Env) (h : Bool) (digest msg : Bytes) (decide : WaterMark → Except HErr WaterMark)
    (s : Dev) (hdec : ∀ hw e, decide hw = .error (.err e) → e ≠ .success) :
    (s.autoSign env h digest msg decide).Fails s ∨
    ∃ b w, s.main.read = .ok b ∧ decide (WaterMark.decode b) = .ok w ∧
      (let s' := (s.writeMain env w).1
       ((s.autoSign env h digest msg decide).Fails s') ∨
       ((s.writeMain env w).2 = .ok ∧ ∃ k sig, s.storedKey = some k ∧ env.cr.sign k.curve k.path digest = some sig ∧
          s.autoSign env h digest msg decide =
            ⟨s', .ok (sigReply h digest sig), some ⟨k.curve, k.path, digest, msg, sig⟩⟩)) := by
  unfold Dev.autoSign
  rcases s.withRead_cases s.main.read .executionError _ with hf | ⟨b, hb, he⟩
  · exact .inl hf
  · rw [he]
    simp only
    cases hd : decide (WaterMark.decode b) with
    | error x =>
      cases x with
      | panic => exact .inl (Dev.fault_fails _ _)
      | err e => exact .inl (Dev.fail_fails _ _ (hdec _ _ hd))
    | ok w =>
      refine .inr ⟨b, w, hb, hd, ?_⟩
      simp only
      rcases (s.writeMain env w).1.afterWrite_cases (s.writeMain env w).2 .executionError
        (fun s => s.bakingSign env h digest msg) with ⟨_, hf⟩ | ⟨hw, he⟩
      · exact .inl hf
      · rw [he]
        rcases (s.writeMain env w).1.bakingSign_cases env h digest msg with hf | ⟨k, sig, hk, hs, he⟩
        · exact .inl hf
        · exact .inr ⟨hw, k, sig, hk, hs, he⟩

theorem specDecide_error {m : Bytes} {hw : WaterMark} {e : ApduError} (h : specDecide m hw = .error (.err e)) :
    e ≠ .success := by
  unfold specDecide at h
  split at h
  · cases h; decide
  · split at h
    · cases h
    · cases h; decide

theorem Dev.handleDelegation_cases (env : Env) (h : Bool) (digest rem msg : Bytes) (ref : MemRef) (s : Dev) :
    (s.handleDelegation env h digest rem msg ref).Fails s ∨
    ∃ branch ops rest op, operationNew rem = .ok (branch, ops) ∧ parseNext ops = .ok (some (rest, op)) ∧
      ((∃ d, op = .delegation d) ∨ ∃ r, op = .reveal r) ∧
      s.handleDelegation env h digest rem msg ref = s.show env (.bakingSign h digest ref op msg) := by
  unfold Dev.handleDelegation
  cases ho : operationNew rem with
  | error x => cases x <;> exact .inl (by first | exact Dev.fail_fails _ _ | exact Dev.fault_fails _ _)
  | ok bo =>
    obtain ⟨branch, ops⟩ := bo
    simp only
    cases hn : parseNext ops with
    | error x => cases x <;> exact .inl (by first | exact Dev.fail_fails _ _ | exact Dev.fault_fails _ _)
    | ok o =>
      cases o with
      | none => exact .inl (s.fail_fails _)
      | some ro =>
        obtain ⟨rest, op⟩ := ro
        cases op with
        | delegation d => exact .inr ⟨branch, ops, rest, _, rfl, hn, .inl ⟨d, rfl⟩, rfl⟩
        | reveal r => exact .inr ⟨branch, ops, rest, _, rfl, hn, .inr ⟨r, rfl⟩, rfl⟩
        | _ => exact .inl (s.fail_fails _)

/-- What `baker_sign` does: nothing, the automatic decision of the specification, or a review. -/
theorem Dev.bakerSign_cases (env : Env) (h : Bool) (p2 : UInt8) (first data : Bytes) (ref : MemRef) (s : Dev) :
    (s.bakerSign env h p2 first data ref).Fails s ∨
    ∃ (k : PathAndCurve) (digest : Bytes), Curve.ofByte p2 = some k.curve ∧ Path.read bip32MaxLength first = .ok k.path ∧
      s.storedKey = some k ∧ env.cr.blake2b 32 data = some digest ∧
      ((Spec.isConsensusMagic data = true ∧
          s.bakerSign env h p2 first data ref = s.autoSign env h digest data (specDecide data)) ∨
       (∃ rem, data = 0x03 :: rem ∧
          s.bakerSign env h p2 first data ref =
            s.handleDelegation env h digest rem data ⟨ref.inFlash, ref.off + 1, ref.len - 1⟩)) := by
  unfold Dev.bakerSign
  rcases s.withPath_cases bip32MaxLength p2 (some first) _ with hf | ⟨k, p, hc, hp, hr, he⟩
  · exact .inl hf
  · cases hp
    rw [he]
    rcases s.withKey_cases .conditionsNotSatisfied .conditionsNotSatisfied _ with hf | ⟨st, hk, he⟩
    · exact .inl hf
    · rw [he]
      split
      · exact .inl (s.fail_fails _)
      · rename_i hne
        have hst : st = k := by simpa using hne
        subst hst
        cases hb : env.cr.blake2b 32 data with
        | none => exact .inl (s.fail_fails _)
        | some digest =>
          simp only
          cases hpre : Preamble.parse data with
          | error x => cases x <;> exact .inl (by first | exact Dev.fail_fails _ _ | exact Dev.fault_fails _ _)
          | ok rp =>
            obtain ⟨rem, p⟩ := rp
            obtain ⟨b, hd, hb'⟩ := preamble_parse_ok hpre
            have hE : (p = .endorsement ∨ p = .tenderbakePreendorsement ∨ p = .tenderbakeEndorsement) →
                Spec.isConsensusMagic data = true ∧
                s.autoSign env h digest data (endorsementDecide p rem) =
                  s.autoSign env h digest data (specDecide data) := by
              intro hp
              refine ⟨?_, ?_⟩
              · rw [hd]
                rcases hp with rfl | rfl | rfl <;>
                  (simp at hb'; subst hb'; simp [Spec.isConsensusMagic])
              · congr 1
                funext hw
                exact endorsementDecide_eq hpre hp
            have hB : (p = .block ∨ p = .tenderbakeBlock) →
                (s.autoSign env h digest data (blockDecide p rem)).Fails s ∨
                (Spec.isConsensusMagic data = true ∧
                s.autoSign env h digest data (blockDecide p rem) =
                  s.autoSign env h digest data (specDecide data)) := by
              intro hp
              have hdec : blockDecide p rem = fun hw => if blockAborts data then .error .panic else specDecide data hw :=
                funext fun hw => blockDecide_eq hpre hp
              by_cases ha : blockAborts data
              · left
                rw [hdec]
                simp only [ha, if_true]
                unfold Dev.autoSign
                rcases s.withRead_cases s.main.read .executionError _ with hf | ⟨b, _, he⟩
                · exact hf
                · rw [he]
                  exact s.fault_fails _
              · right
                refine ⟨?_, by rw [hdec]; simp only [ha, if_false]⟩
                rw [hd]
                rcases hp with rfl | rfl <;> (simp at hb'; subst hb'; simp [Spec.isConsensusMagic])
            cases p with
            | tbd => exact .inl (s.fail_fails _)
            | michelson => exact .inl (s.fail_fails _)
            | operation =>
              have hb3 : b = 0x03 := by simpa using hb'
              exact .inr ⟨st, digest, hc, hr, hk, rfl, .inr ⟨rem, by rw [hd, hb3], by simp only⟩⟩
            | endorsement =>
              obtain ⟨h1, h2⟩ := hE (by simp)
              exact .inr ⟨st, digest, hc, hr, hk, rfl, .inl ⟨h1, by simp only; exact h2⟩⟩
            | tenderbakePreendorsement =>
              obtain ⟨h1, h2⟩ := hE (by simp)
              exact .inr ⟨st, digest, hc, hr, hk, rfl, .inl ⟨h1, by simp only; exact h2⟩⟩
            | tenderbakeEndorsement =>
              obtain ⟨h1, h2⟩ := hE (by simp)
              exact .inr ⟨st, digest, hc, hr, hk, rfl, .inl ⟨h1, by simp only; exact h2⟩⟩
            | block =>
              rcases hB (by simp) with hf | ⟨h1, h2⟩
              · exact .inl hf
              · exact .inr ⟨st, digest, hc, hr, hk, rfl, .inl ⟨h1, by simp only; exact h2⟩⟩
            | tenderbakeBlock =>
              rcases hB (by simp) with hf | ⟨h1, h2⟩
              · exact .inl hf
              · exact .inr ⟨st, digest, hc, hr, hk, rfl, .inl ⟨h1, by simp only; exact h2⟩⟩

end Tezos
