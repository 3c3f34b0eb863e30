import Verif.Props.Dispatch
import Verif.Props.Live
/-
C113: what a restart leaves. Two devices with the same records, the same display and the same kind of upload area cannot
be told apart after a restart, whatever is left in the upload area.
-/
set_option linter.unusedSimpArgs false
set_option linter.unusedVariables false
namespace Tezos

/-! ### The upload memory -/

/-- The two writes go the same way. What a power failure leaves may differ. -/
def WriteFate.Akin (a b : WriteFate) : Prop := a = b ∨ ∃ x y, a = .powerLoss x ∧ b = .powerLoss y

/-- The outside world of two devices at the same event: the same keys and hashes (the seed is the same), and the same
things fail. -/
structure Env.Akin (e e' : Env) : Prop where
  cr : e'.cr = e.cr
  main : e'.mainF = e.mainF
  test : e'.testF = e.testF
  chain : e'.chainF = e.chainF
  key : e'.keyF = e.keyF
  copy : e.copyF.Akin e'.copyF
  append : e.appendF.Akin e'.appendF

/-- Two upload memories that are equal but for the flash part. -/
structure SwapFlat (L : Nat) (b c : SwapBuf) : Prop where
  ram : c.ram = b.ram
  inFlash : c.inFlash = b.inFlash
  cnt : c.cnt = b.cnt
  len : b.flash.length = L
  len' : c.flash.length = L

/-- ... and that agree in all that was written since the start, the first `h` bytes of the flash part. -/
structure SwapLike (L h : Nat) (b c : SwapBuf) : Prop extends SwapFlat L b c where
  agree : ∀ i, i < h → c.flash[i]? = b.flash[i]?
  high : b.inFlash = true → b.cnt ≤ h
  low : b.inFlash = false → b.cnt ≤ b.ram.length

theorem overwrite_get {mem bs : Bytes} {off : Nat} (h : off + bs.length ≤ mem.length) (i : Nat) :
    (overwrite mem off bs)[i]? =
      if i < off then mem[i]? else if i < off + bs.length then bs[i - off]? else mem[i]? := by
  unfold overwrite
  have hl : (mem.take off).length = off := by simp; omega
  by_cases h1 : i < off
  · rw [if_pos h1, List.append_assoc, List.getElem?_append_left (by omega), List.getElem?_take, if_pos h1]
  · rw [if_neg h1, List.append_assoc, List.getElem?_append_right (by omega), hl]
    by_cases h2 : i < off + bs.length
    · rw [if_pos h2, List.getElem?_append_left (by omega)]
    · rw [if_neg h2, List.getElem?_append_right (by omega), List.getElem?_drop]
      congr 1
      omega

theorem overwrite_agree {a c bs : Bytes} {off h : Nat} (hl : off + bs.length ≤ a.length) (hc : c.length = a.length)
    (ha : ∀ i, i < h → c[i]? = a[i]?) (ho : off ≤ h) (i : Nat) (hi : i < max h (off + bs.length)) :
    (overwrite c off bs)[i]? = (overwrite a off bs)[i]? := by
  rw [overwrite_get hl, overwrite_get (by omega)]
  split
  · exact ha i (by omega)
  · split
    · rfl
    · exact ha i (by omega)

/-- What a write to both memories leads to. -/
structure WriteLike (L h : Nat) (r r' : SwapBuf × WriteRes) : Prop where
  res : r'.2 = r.2
  flat : SwapFlat L r.1 r'.1
  like : r.2 ≠ .powerLoss → ∃ h', h ≤ h' ∧ SwapLike L h' r.1 r'.1

section
variable {L h : Nat} {b c : SwapBuf} {fc fa fc' fa' : WriteFate}

theorem SwapLike.writeFlash (hl : SwapLike L h b c) (hin : b.inFlash = true) (hf : fa.Akin fa') (bs : Bytes) :
    WriteLike L h (b.writeFlash fa bs) (c.writeFlash fa' bs) := by
  obtain ⟨cr, cf, ci, cc⟩ := c
  obtain ⟨⟨h1, h2, h3, hlb, hlc⟩, hag, hhi, hlo⟩ := hl
  dsimp only at h1 h2 h3 hlc hag
  subst h1 h2 h3
  have hl : SwapLike L h b ⟨b.ram, cf, b.inFlash, b.cnt⟩ := ⟨⟨rfl, rfl, rfl, hlb, hlc⟩, hag, hhi, hlo⟩
  have hh := hl.high hin
  unfold SwapBuf.writeFlash
  dsimp only
  rw [hlb, hlc]
  split
  · exact ⟨rfl, hl.1, fun _ => ⟨h, Nat.le_refl _, hl⟩⟩
  · rename_i hfit
    have hj : ∀ (m junk : Bytes), m.length = L → (overwrite m b.cnt (junk.take bs.length)).length = L := by
      intro m junk hm
      rw [overwrite_length (by simp; omega), hm]
    have hk : ∀ (m : Bytes), m.length = L → (overwrite m b.cnt bs).length = L := by
      intro m hm
      rw [overwrite_length (by omega), hm]
    rcases hf with rfl | ⟨x, y, rfl, rfl⟩
    · cases fa with
      | done =>
        have hflat : SwapFlat L { b with flash := overwrite b.flash b.cnt bs, cnt := b.cnt + bs.length }
            ⟨b.ram, overwrite cf b.cnt bs, b.inFlash, b.cnt + bs.length⟩ :=
          ⟨hl.ram, hl.inFlash, rfl, hk _ hl.len, hk _ hl.len'⟩
        refine ⟨rfl, hflat, fun _ => ⟨max h (b.cnt + bs.length), by omega, hflat, ?_, fun _ => ?_, fun h' => ?_⟩⟩
        · exact overwrite_agree (by rw [hl.len]; omega) (by rw [hl.len, hl.len']) hl.agree hh
        · show b.cnt + bs.length ≤ _
          omega
        · rw [show _ = b.inFlash from rfl, hin] at h'
          cases h'
      | fails junk =>
        have hflat : SwapFlat L { b with flash := overwrite b.flash b.cnt (junk.take bs.length) }
            ⟨b.ram, overwrite cf b.cnt (junk.take bs.length), b.inFlash, b.cnt⟩ :=
          ⟨hl.ram, hl.inFlash, hl.cnt, hj _ _ hl.len, hj _ _ hl.len'⟩
        refine ⟨rfl, hflat, fun _ => ⟨h, Nat.le_refl _, hflat, fun i hi => ?_, fun _ => hh, fun h' => ?_⟩⟩
        · exact overwrite_agree (by rw [hl.len]; simp; omega) (by rw [hl.len, hl.len']) hl.agree hh i (by omega)
        · rw [show _ = b.inFlash from rfl, hin] at h'
          cases h'
      | powerLoss junk =>
        exact ⟨rfl, ⟨hl.ram, hl.inFlash, hl.cnt, hj _ _ hl.len, hj _ _ hl.len'⟩, fun h' => absurd rfl h'⟩
    · exact ⟨rfl, ⟨hl.ram, hl.inFlash, hl.cnt, hj _ _ hl.len, hj _ _ hl.len'⟩, fun h' => absurd rfl h'⟩

theorem SwapLike.write (hl : SwapLike L h b c) (hc : fc.Akin fc') (hf : fa.Akin fa') (bs : Bytes) :
    WriteLike L h (b.write fc fa bs) (c.write fc' fa' bs) := by
  obtain ⟨cr, cf, ci, cc⟩ := c
  obtain ⟨⟨h1, h2, h3, hlb, hlc⟩, hag, hhi, hlo⟩ := hl
  dsimp only at h1 h2 h3 hlc hag
  subst h1 h2 h3
  have hl : SwapLike L h b ⟨b.ram, cf, b.inFlash, b.cnt⟩ := ⟨⟨rfl, rfl, rfl, hlb, hlc⟩, hag, hhi, hlo⟩
  unfold SwapBuf.write
  dsimp only
  rw [hlb, hlc]
  split
  · rename_i hin
    exact hl.writeFlash hin hf bs
  · rename_i hin
    simp only [Bool.not_eq_true] at hin
    have hlow := hl.low hin
    split
    · split
      · exact ⟨rfl, hl.1, fun _ => ⟨h, Nat.le_refl _, hl⟩⟩
      · rename_i hfit
        have hj : ∀ (m junk : Bytes), m.length = L → (overwrite m 0 (junk.take b.ram.length)).length = L := by
          intro m junk hm
          rw [overwrite_length (by simp; omega), hm]
        rcases hc with rfl | ⟨x, y, rfl, rfl⟩
        · cases fc with
          | done =>
            have hl' : SwapLike L (max h b.ram.length) { b with flash := overwrite b.flash 0 b.ram, inFlash := true }
                ⟨b.ram, overwrite cf 0 b.ram, true, b.cnt⟩ := by
              refine ⟨⟨hl.ram, rfl, hl.cnt, ?_, ?_⟩, fun i hi => ?_, fun _ => ?_, fun h' => by cases h'⟩
              · rw [← hl.len]; exact overwrite_length (by rw [hl.len]; omega)
              · rw [← hl.len']; exact overwrite_length (by rw [hl.len']; omega)
              · exact overwrite_agree (by rw [hl.len]; omega) (by rw [hl.len, hl.len']) hl.agree (Nat.zero_le _) i
                  (by omega)
              · show b.cnt ≤ _
                omega
            obtain ⟨h1, h2, h3⟩ := hl'.writeFlash rfl hf bs
            refine ⟨h1, h2, fun hp => ?_⟩
            obtain ⟨h', hle, hlk⟩ := h3 hp
            exact ⟨h', by omega, hlk⟩
          | fails junk =>
            have hflat : SwapFlat L { b with flash := overwrite b.flash 0 (junk.take b.ram.length) }
                ⟨b.ram, overwrite cf 0 (junk.take b.ram.length), b.inFlash, b.cnt⟩ :=
              ⟨hl.ram, hl.inFlash, hl.cnt, hj _ _ hl.len, hj _ _ hl.len'⟩
            refine ⟨rfl, hflat, fun _ => ⟨h, Nat.le_refl _, hflat, fun i hi => ?_, hl.high, hl.low⟩⟩
            exact overwrite_agree (by rw [hl.len]; simp; omega) (by rw [hl.len, hl.len']) hl.agree (Nat.zero_le _) i
              (by omega)
          | powerLoss junk =>
            exact ⟨rfl, ⟨hl.ram, hl.inFlash, hl.cnt, hj _ _ hl.len, hj _ _ hl.len'⟩, fun h' => absurd rfl h'⟩
        · exact ⟨rfl, ⟨hl.ram, hl.inFlash, hl.cnt, hj _ _ hl.len, hj _ _ hl.len'⟩, fun h' => absurd rfl h'⟩
    · rename_i hfit
      have hr : (overwrite b.ram b.cnt bs).length = b.ram.length := overwrite_length (by omega)
      have hflat : SwapFlat L { b with ram := overwrite b.ram b.cnt bs, cnt := b.cnt + bs.length }
          ⟨overwrite b.ram b.cnt bs, cf, b.inFlash, b.cnt + bs.length⟩ :=
        ⟨rfl, hl.inFlash, rfl, hl.len, hl.len'⟩
      refine ⟨rfl, hflat, fun _ => ⟨h, Nat.le_refl _, hflat, hl.agree, fun h' => ?_, fun _ => ?_⟩⟩
      · rw [show _ = b.inFlash from rfl, hin] at h'
        cases h'
      · show b.cnt + bs.length ≤ (overwrite b.ram b.cnt bs).length
        omega

theorem SwapLike.reset (hl : SwapLike L h b c) : SwapLike L h b.reset c.reset :=
  ⟨⟨hl.ram, rfl, rfl, hl.len, hl.len'⟩, hl.agree, fun h' => (by cases h'), fun _ => Nat.zero_le _⟩

theorem SwapFlat.reset (hl : SwapFlat L b c) : SwapFlat L b.reset c.reset := ⟨hl.ram, rfl, rfl, hl.len, hl.len'⟩

theorem slice_agree {a d : Bytes} {h off n : Nat} (ha : ∀ i, i < h → d[i]? = a[i]?) (ho : off + n ≤ h) :
    slice d off n = slice a off n := by
  unfold slice
  apply List.ext_getElem?
  intro i
  rw [List.getElem?_take, List.getElem?_take]
  split
  · rw [List.getElem?_drop, List.getElem?_drop]
    exact ha _ (by omega)
  · rfl

theorem SwapLike.readExact (hl : SwapLike L h b c) : c.readExact = b.readExact := by
  unfold SwapBuf.readExact
  rw [hl.inFlash, hl.cnt, hl.ram]
  split
  · rename_i hin
    have := slice_agree (off := 0) (n := b.cnt) hl.agree (by have := hl.high hin; omega)
    simpa [slice] using this
  · rfl

theorem SwapLike.get (hl : SwapLike L h b c) {r : MemRef} (hr : r.inFlash = true → r.off + r.len ≤ h) :
    r.get c = r.get b := by
  unfold MemRef.get
  rw [hl.ram]
  split
  · rename_i hin
    exact slice_agree hl.agree (hr hin)
  · rfl

end

/-! ### Uploads -/

/-- Two sets of variables of the upload that are equal but for the flash part of the buffer. -/
structure UplFlat (L : Nat) (u w : Upl) : Prop where
  lock : w.lock = u.lock
  initLen : w.initLen = u.initLen
  buf : SwapFlat L u.buf w.buf

/-- ... and agree in all that was written since the start. -/
structure UplLike (L h : Nat) (u w : Upl) : Prop where
  lock : w.lock = u.lock
  initLen : w.initLen = u.initLen
  buf : SwapLike L h u.buf w.buf

theorem UplLike.flat {L h : Nat} {u w : Upl} (hl : UplLike L h u w) : UplFlat L u w := ⟨hl.1, hl.2, hl.3.1⟩

/-- What a packet on both devices leads to. -/
structure PacketLike (L h : Nat) (r r' : Upl × UplRes) : Prop where
  res : r'.2 = r.2
  flat : UplFlat L r.1 r'.1
  like : r.2 ≠ .powerLoss → ∃ h', h ≤ h' ∧ UplLike L h' r.1 r'.1 ∧
    ∀ p2 first data ref, r.2 = .complete p2 first data ref →
      data.length = ref.len ∧ (ref.inFlash = true → ref.off + ref.len ≤ h')

section
variable {L h : Nat} {u w : Upl} {fc fa fc' fa' : WriteFate}

theorem PacketLike.same {x : UplRes} (hl : UplLike L h u w)
    (hx : ∀ p2 first data ref, x ≠ .complete p2 first data ref) :
    PacketLike L h (u, x) (w, x) :=
  ⟨rfl, hl.flat, fun _ => ⟨h, Nat.le_refl _, hl, fun p2 first data ref he => absurd he (hx _ _ _ _)⟩⟩

theorem UplRes.ofWrite_cases (r : WriteRes) :
    (r = .ok ∧ UplRes.ofWrite r = none) ∨
    (∃ e, r ≠ .ok ∧ UplRes.ofWrite r = some e ∧ (e = .powerLoss → r = .powerLoss) ∧ (r = .powerLoss → e = .powerLoss) ∧
      ∀ p2 first data ref, e ≠ .complete p2 first data ref) := by
  cases r
  · exact .inl ⟨rfl, rfl⟩
  all_goals exact .inr ⟨_, by simp, rfl, by simp, by simp, by simp⟩

/-- Writing and going on. -/
theorem UplLike.written (hl : UplLike L h u w) (hc : fc.Akin fc') (hf : fa.Akin fa') (bs : Bytes)
    {k k' : Upl → Upl × UplRes}
    (hk : ∀ h' u w, h ≤ h' → UplLike L h' u w → PacketLike L h' (k u) (k' w)) :
    PacketLike L h
      (match UplRes.ofWrite (u.buf.write fc fa bs).2 with
        | some e => ({ u with buf := (u.buf.write fc fa bs).1 }, e)
        | none => k { u with buf := (u.buf.write fc fa bs).1 })
      (match UplRes.ofWrite (w.buf.write fc' fa' bs).2 with
        | some e => ({ w with buf := (w.buf.write fc' fa' bs).1 }, e)
        | none => k' { w with buf := (w.buf.write fc' fa' bs).1 }) := by
  obtain ⟨h1, h2, h3⟩ := hl.buf.write hc hf bs
  rw [h1]
  rcases UplRes.ofWrite_cases (u.buf.write fc fa bs).2 with ⟨hr, he⟩ | ⟨e, hr, he, hp, hp', hx⟩
  · rw [he]
    obtain ⟨h', hle, hlk⟩ := h3 (by rw [hr]; simp)
    obtain ⟨a1, a2, a3⟩ := hk h' { u with buf := (u.buf.write fc fa bs).1 }
      { w with buf := (w.buf.write fc' fa' bs).1 } hle
      ⟨hl.lock, hl.initLen, hlk⟩
    refine ⟨a1, a2, fun hp => ?_⟩
    obtain ⟨h'', hle', hb⟩ := a3 hp
    exact ⟨h'', by omega, hb⟩
  · rw [he]
    refine ⟨rfl, ⟨hl.lock, hl.initLen, h2⟩, fun hnp => ?_⟩
    obtain ⟨h', hle, hlk⟩ := h3 (fun hh => hnp (hp' hh))
    exact ⟨h', hle, ⟨hl.lock, hl.initLen, hlk⟩, fun p2 first data ref he' => absurd he' (hx _ _ _ _)⟩

theorem UplLike.upload (hl : UplLike L h u w) (hc : fc.Akin fc') (hf : fa.Akin fa') (acc : Accessor) (p1 p2 : UInt8)
    (payload : Option Bytes) :
    PacketLike L h (u.upload fc fa acc p1 p2 payload) (w.upload fc' fa' acc p1 p2 payload) := by
  obtain ⟨wl, wb, wi⟩ := w
  obtain ⟨h1, h2, hb⟩ := hl
  dsimp only at h1 h2 hb
  subst h1 h2
  have hl : UplLike L h u ⟨u.lock, wb, u.initLen⟩ := ⟨rfl, rfl, hb⟩
  unfold Upl.upload
  cases PacketType.tryEither p1 with
  | none => exact .same hl (by simp)
  | some t =>
    dsimp only
    split
    · have hl0 : UplLike L h { u with lock := lockLock u.lock acc, buf := u.buf.reset }
          ⟨lockLock u.lock acc, wb.reset, u.initLen⟩ := ⟨rfl, hl.initLen, hl.buf.reset⟩
      refine hl0.written hc hf [p2]
        (k := fun u => match payload with
          | none => (u, .more)
          | some pl =>
            let u := { u with initLen := pl.length }
            let (b, r) := u.buf.write fc fa pl
            let u := { u with buf := b }
            match UplRes.ofWrite r with
            | some e => (u, e)
            | none => (u, .more))
        (k' := fun u => match payload with
          | none => (u, .more)
          | some pl =>
            let u := { u with initLen := pl.length }
            let (b, r) := u.buf.write fc' fa' pl
            let u := { u with buf := b }
            match UplRes.ofWrite r with
            | some e => (u, e)
            | none => (u, .more)) fun h' u w hle hl => ?_
      cases payload with
      | none => exact .same hl (by simp)
      | some pl =>
        have hl1 : UplLike L h' { u with initLen := pl.length } { w with initLen := pl.length } :=
          ⟨hl.lock, rfl, hl.buf⟩
        exact hl1.written hc hf pl (k := fun u => (u, .more)) (k' := fun u => (u, .more))
          fun _ _ _ _ hl => .same hl (by simp)
    · split
      · cases lockAcquire u.lock acc with
        | error e => exact .same hl (by simp)
        | ok _ =>
          cases payload with
          | none => exact .same hl (by simp)
          | some pl =>
            exact hl.written hc hf pl (k := fun u => (u, .more)) (k' := fun u => (u, .more))
              fun _ _ _ _ hl => .same hl (by simp)
      · split
        · cases lockAcquire u.lock acc with
          | error e => exact .same hl (by simp)
          | ok _ =>
            have hfin : ∀ h' (u w : Upl), h ≤ h' → UplLike L h' u w → PacketLike L h'
                (match u.buf.readExact with
                  | [] => (u, .panic)
                  | d0 :: tail =>
                    if u.initLen ≤ tail.length then
                      (u, .complete d0 (tail.take u.initLen) (tail.drop u.initLen)
                        ⟨u.buf.inFlash, 1 + u.initLen, tail.length - u.initLen⟩)
                    else (u, .panic))
                (match w.buf.readExact with
                  | [] => (w, .panic)
                  | d0 :: tail =>
                    if w.initLen ≤ tail.length then
                      (w, .complete d0 (tail.take w.initLen) (tail.drop w.initLen)
                        ⟨w.buf.inFlash, 1 + w.initLen, tail.length - w.initLen⟩)
                    else (w, .panic)) := by
              intro h' u w _ hl
              rw [hl.buf.readExact, hl.initLen, hl.buf.inFlash]
              have hlen : u.buf.inFlash = true → u.buf.readExact.length ≤ h' := by
                intro hin
                have := hl.buf.high hin
                simp only [SwapBuf.readExact, hin, if_true, List.length_take]
                omega
              cases hr : u.buf.readExact with
              | nil => exact .same hl (by simp)
              | cons d0 tail =>
                rw [hr] at hlen
                dsimp only
                split
                · refine ⟨rfl, hl.flat, fun _ => ⟨h', Nat.le_refl _, hl, fun p2 first data ref he => ?_⟩⟩
                  cases he
                  refine ⟨by simp, fun hin => ?_⟩
                  have := hlen hin
                  simp only [List.length_cons] at this
                  dsimp only
                  omega
                · exact .same hl (by simp)
            cases payload with
            | none => exact hfin h u _ (Nat.le_refl _) hl
            | some pl => exact hl.written hc hf pl hfin
        · exact .same hl (by simp)

theorem UplLike.drop (hl : UplLike L h u w) (acc : Accessor) : UplLike L h (u.drop acc) (w.drop acc) := by
  unfold Upl.drop
  rw [hl.lock]
  split
  · exact ⟨rfl, hl.initLen, hl.buf.reset⟩
  · exact hl

theorem UplFlat.drop (hl : UplFlat L u w) (acc : Accessor) : UplFlat L (u.drop acc) (w.drop acc) := by
  unfold Upl.drop
  rw [hl.lock]
  split
  · exact ⟨rfl, hl.initLen, hl.buf.reset⟩
  · exact hl

end

/-! ### Devices -/

/-- The other device. -/
def Dev.setUpl (s : Dev) (w : Upl) : Dev := { s with upl := w }

/-- The other world. -/
def Env.setUpl (env : Env) (fc fa : WriteFate) : Env := { env with copyF := fc, appendF := fa }

/-- What a review refers to was written since the start. -/
def View.Within (h : Nat) : View → Prop
  | .sign _ _ (some r) _ => r.inFlash = true → r.off + 32 ≤ h ∧ r.off + r.len ≤ h
  | .bakingSign _ _ r _ _ => r.inFlash = true → r.off + 32 ≤ h ∧ r.off + r.len ≤ h
  | _ => True

theorem View.Within.mono {h h' : Nat} {v : View} (hv : v.Within h) (hle : h ≤ h') : v.Within h' := by
  cases v with
  | sign a b r d =>
    cases r with
    | none => trivial
    | some r => exact fun hin => ⟨by have := hv hin; omega, by have := hv hin; omega⟩
  | bakingSign a b r c d => exact fun hin => ⟨by have := hv hin; omega, by have := hv hin; omega⟩
  | _ => trivial

/-- Two running devices that cannot be told apart; the second is the first with another upload memory. -/
structure Dev.Near (L h : Nat) (s : Dev) (w : Upl) : Prop where
  upl : UplLike L h s.upl w
  view : ∀ v, s.view = some v → v.Within h

/-- Two results that cannot be told apart. -/
def Res.Like (L : Nat) (r r' : Res) : Prop :=
  ∃ w, r' = ⟨r.st.setUpl w, r.out, r.sig⟩ ∧ UplFlat L r.st.upl w ∧ ((∀ f, r.out ≠ .fault f) → ∃ h, r.st.Near L h w)

theorem SwapLike.viewer {L h : Nat} {b c : SwapBuf} (hl : SwapLike L h b c) (cr : Crypto) {v : View} (hv : v.Within h) :
    v.viewer cr c = v.viewer cr b := by
  cases v with
  | sign a d r m =>
    cases r with
    | none => rfl
    | some r =>
      simp only [View.viewer]
      rw [hl.get (r := ⟨r.inFlash, r.off, 32⟩) fun hin => (hv hin).1,
        hl.get (r := ⟨r.inFlash, r.off + 32, r.len - 32⟩) fun hin => by have := hv hin; dsimp only; omega]
  | bakingSign a d r o m =>
    simp only [View.viewer]
    rw [hl.get (r := ⟨r.inFlash, r.off, 32⟩) fun hin => (hv hin).1,
      hl.get (r := ⟨r.inFlash, r.off + 32, r.len - 32⟩) fun hin => by have := hv hin; dsimp only; omega]
  | _ => rfl

section
variable {L h : Nat} {s : Dev} {w : Upl} {env : Env} {fc fa : WriteFate}

theorem Dev.Near.done (hn : s.Near L h w) {out : HRes} {sig : Option SigRec} :
    Res.Like L ⟨s, out, sig⟩ ⟨s.setUpl w, out, sig⟩ := ⟨w, rfl, hn.upl.flat, fun _ => ⟨h, hn⟩⟩

theorem Dev.Near.afterWrite (hn : s.Near L h w) (r : WriteRes) (e : ApduError) {k k' : Dev → Res}
    (hk : Res.Like L (k s) (k' (s.setUpl w))) : Res.Like L (s.afterWrite r e k) ((s.setUpl w).afterWrite r e k') := by
  cases r with
  | ok => exact hk
  | _ => exact hn.done

theorem Dev.Near.withRead (hn : s.Near L h w) (r : ReadRes) (e : ApduError) {k k' : Bytes → Res}
    (hk : ∀ b, Res.Like L (k b) (k' b)) : Res.Like L (s.withRead r e k) ((s.setUpl w).withRead r e k') := by
  cases r with
  | ok => exact hk _
  | _ => exact hn.done

theorem Dev.Near.withKey (hn : s.Near L h w) (e e' : ApduError) {k k' : PathAndCurve → Res}
    (hk : ∀ b, Res.Like L (k b) (k' b)) : Res.Like L (s.withKey e e' k) ((s.setUpl w).withKey e e' k') := by
  refine hn.withRead s.key.read e fun b => ?_
  cases PathAndCurve.tryFromBytes b with
  | error e => exact hn.done
  | ok o =>
    cases o with
    | none => exact hn.done
    | some k => exact hk k

theorem Dev.Near.withPath (hn : s.Near L h w) (n : Nat) (p2 : UInt8) (pl : Option Bytes) {k k' : PathAndCurve → Res}
    (hk : ∀ b, Res.Like L (k b) (k' b)) : Res.Like L (s.withPath n p2 pl k) ((s.setUpl w).withPath n p2 pl k') := by
  unfold Dev.withPath
  cases Curve.ofByte p2 with
  | none => exact hn.done
  | some c =>
    cases pl with
    | none => exact hn.done
    | some p =>
      dsimp only
      cases Path.read n p with
      | error e => exact hn.done
      | ok path => exact hk _

theorem Dev.Near.show (hn : s.Near L h w) {v : View} (hv : v.Within h) :
    Res.Like L (s.show env v) ((s.setUpl w).show (env.setUpl fc fa) v) := by
  have hnv : ∀ z : Zui, Dev.Near L h { s with view := some v, zui := z } w := fun z =>
    ⟨hn.upl, fun v' hv' => by cases hv'; exact hv⟩
  have hnn : ∀ z : Zui, Dev.Near L h { v.reject { s with view := some v } with zui := z, view := none } w := fun z => by
    refine ⟨?_, fun v' hv' => by cases hv'⟩
    cases v <;> exact hn.upl
  unfold Dev.show
  have he : v.viewer (env.setUpl fc fa).cr { s.setUpl w with view := some v }.upl.buf =
      v.viewer env.cr { s with view := some v }.upl.buf := hn.upl.buf.viewer env.cr hv
  dsimp only at he ⊢
  rw [he]
  have hz : (s.setUpl w).zui = s.zui := rfl
  rw [hz]
  cases s.zui.openReview (v.viewer env.cr s.upl.buf) with
  | shown z => exact (hnv z).done
  | failed z => exact (hnv _).done
  | rejected z =>
    have := (hnn { z with screen := .error }).done (out := .shown (some (statusWord .commandNotAllowed))) (sig := none)
    cases v <;> exact this
  | panic => exact (hnv s.zui).done
  | hang => exact (hnv s.zui).done

theorem Dev.Near.accept (hn : s.Near L h w) (v : View) :
    Res.Like L (v.accept env s) (v.accept (env.setUpl fc fa) (s.setUpl w)) := by
  cases v with
  | sign sendHash digest r msg =>
    simp only [View.accept]
    show Res.Like L (match s.path with | none => _ | some (path, curve) => _)
      (match s.path with | none => _ | some (path, curve) => _)
    cases s.path with
    | none => exact hn.done
    | some pc =>
      obtain ⟨path, curve⟩ := pc
      show Res.Like L (match env.cr.sign curve path digest with | none => _ | some sig => _)
        (match env.cr.sign curve path digest with | none => _ | some sig => _)
      cases env.cr.sign curve path digest with
      | none => exact hn.done
      | some sig => exact Dev.Near.done (s := { s with path := none }) ⟨hn.upl, hn.view⟩
  | bakingSign sendHash digest r o msg =>
    refine hn.withKey _ _ fun k => ?_
    show Res.Like L (match env.cr.sign k.curve k.path digest with | none => _ | some sig => _)
      (match env.cr.sign k.curve k.path digest with | none => _ | some sig => _)
    cases env.cr.sign k.curve k.path digest with
    | none => exact hn.done
    | some sig => exact hn.done
  | addr a key withAddr =>
    simp only [View.accept]
    split
    · cases a.base58 with
      | error e => exact hn.done
      | ok t => exact hn.done
    · exact hn.done
  | authorize k a =>
    simp only [View.accept]
    show Res.Like L (match env.cr.publicKey k.curve k.path with | none => _ | some key => _)
      (match env.cr.publicKey k.curve k.path with | none => _ | some key => _)
    cases env.cr.publicKey k.curve k.path with
    | none => exact hn.done
    | some key =>
      have hn1 : Dev.Near L h (s.storeKey env k).1 w := ⟨hn.upl, hn.view⟩
      exact hn1.afterWrite _ _ hn1.done
  | deauthorize a =>
    have hn1 : Dev.Near L h (s.removeKey env).1 w := ⟨hn.upl, hn.view⟩
    exact hn1.afterWrite _ _ (k := fun s => s.ok []) (k' := fun s => s.ok []) hn1.done
  | query k a wc => exact hn.done
  | setup k a m t ch =>
    simp only [View.accept]
    show Res.Like L (match env.cr.publicKey k.curve k.path with | none => _ | some key => _)
      (match env.cr.publicKey k.curve k.path with | none => _ | some key => _)
    cases env.cr.publicKey k.curve k.path with
    | none => exact hn.done
    | some key =>
      have hn1 : Dev.Near L h (s.storeKey env k).1 w := ⟨hn.upl, hn.view⟩
      refine hn1.afterWrite _ _ ?_
      have hn2 : Dev.Near L h ((s.storeKey env k).1.writeMain env (WaterMark.reset m false)).1 w := ⟨hn.upl, hn.view⟩
      refine hn2.afterWrite _ _ ?_
      have hn3 : Dev.Near L h (((s.storeKey env k).1.writeMain env (WaterMark.reset m false)).1.writeTest env
        (WaterMark.reset t false)).1 w := ⟨hn.upl, hn.view⟩
      refine hn3.afterWrite _ _ ?_
      have hn4 : Dev.Near L h ((((s.storeKey env k).1.writeMain env (WaterMark.reset m false)).1.writeTest env
        (WaterMark.reset t false)).1.writeChain env ch.toU32).1 w := ⟨hn.upl, hn.view⟩
      exact hn4.afterWrite _ _ hn4.done

theorem Dev.Near.bakingSign (hn : s.Near L h w) (sendHash : Bool) (digest msg : Bytes) :
    Res.Like L (s.bakingSign env sendHash digest msg)
      ((s.setUpl w).bakingSign (env.setUpl fc fa) sendHash digest msg) := by
  refine hn.withKey _ _ fun k => ?_
  show Res.Like L (match env.cr.sign k.curve k.path digest with | none => _ | some sig => _)
    (match env.cr.sign k.curve k.path digest with | none => _ | some sig => _)
  cases env.cr.sign k.curve k.path digest with
  | none => exact hn.done
  | some sig => exact hn.done

theorem Env.setUpl_cr : (env.setUpl fc fa).cr = env.cr := rfl
theorem Dev.setUpl_main : (s.setUpl w).main = s.main := rfl
theorem Dev.setUpl_chain : (s.setUpl w).chain = s.chain := rfl
theorem Dev.setUpl_allHwm : (s.setUpl w).allHwm = s.allHwm := rfl

theorem Dev.Near.cmdReset (hn : s.Near L h w) (pl : Option Bytes) :
    Res.Like L (s.cmdReset env pl) ((s.setUpl w).cmdReset (env.setUpl fc fa) pl) := by
  unfold Dev.cmdReset
  cases pl with
  | none => exact hn.done
  | some p =>
    dsimp only
    split
    · exact hn.done
    · generalize u32OfBe (p.take 4) = lv
      unfold Dev.resetHwm
      have hn1 : Dev.Near L h (s.writeMain env (WaterMark.reset lv false)).1 w := ⟨hn.upl, hn.view⟩
      refine hn1.afterWrite _ _ ?_
      generalize (s.writeMain env (WaterMark.reset lv false)).1 = s at hn1 ⊢
      have hn2 : Dev.Near L h (s.writeTest env (WaterMark.reset lv false)).1 w := ⟨hn1.upl, hn1.view⟩
      refine hn2.afterWrite _ _ ?_
      generalize (s.writeTest env (WaterMark.reset lv false)).1 = s at hn2 ⊢
      simp only [Dev.setUpl_chain]
      cases s.chain.read with
      | panic => exact hn2.done
      | ok b => exact hn2.done
      | err e =>
        cases e
        case uninitialized =>
          have hn3 : Dev.Near L h (s.writeChain env mainnetChainId).1 w := ⟨hn2.upl, hn2.view⟩
          exact hn3.afterWrite _ _ hn3.done
        all_goals exact hn2.done

theorem Dev.Near.cmdQueryMain (hn : s.Near L h w) : Res.Like L s.cmdQueryMain (s.setUpl w).cmdQueryMain := by
  unfold Dev.cmdQueryMain
  rw [Dev.setUpl_main]
  cases s.main.read with
  | err e => cases e <;> exact hn.done
  | _ => exact hn.done

theorem Dev.Near.cmdQueryAll (hn : s.Near L h w) : Res.Like L s.cmdQueryAll (s.setUpl w).cmdQueryAll := by
  unfold Dev.cmdQueryAll
  rw [Dev.setUpl_allHwm]
  cases s.allHwm with
  | err e => cases e <;> exact hn.done
  | _ => exact hn.done

theorem Dev.Near.cmdAuthorize (hn : s.Near L h w) (p1 p2 : UInt8) (pl : Option Bytes) :
    Res.Like L (s.cmdAuthorize env p1 p2 pl) ((s.setUpl w).cmdAuthorize (env.setUpl fc fa) p1 p2 pl) := by
  unfold Dev.cmdAuthorize
  split
  · exact hn.done
  · refine hn.withPath _ _ _ fun k => ?_
    rw [Env.setUpl_cr]
    cases newAddr env.cr k.curve k.path with
    | none => exact hn.done
    | some a => exact hn.show trivial

theorem Dev.Near.cmdDeauthorize (hn : s.Near L h w) (p1 : UInt8) :
    Res.Like L (s.cmdDeauthorize env p1) ((s.setUpl w).cmdDeauthorize (env.setUpl fc fa) p1) := by
  unfold Dev.cmdDeauthorize
  split
  · exact hn.done
  · refine hn.withKey _ _ fun k => ?_
    rw [Env.setUpl_cr]
    cases newAddr env.cr k.curve k.path with
    | none => exact hn.done
    | some a => exact hn.show trivial

theorem Dev.Near.cmdQueryAuth (hn : s.Near L h w) (wc : Bool) (p1 : UInt8) :
    Res.Like L (s.cmdQueryAuth env wc p1) ((s.setUpl w).cmdQueryAuth (env.setUpl fc fa) wc p1) := by
  unfold Dev.cmdQueryAuth
  refine hn.withKey _ _ fun k => ?_
  rw [Env.setUpl_cr]
  cases newAddr env.cr k.curve k.path with
  | none => exact hn.done
  | some a =>
    dsimp only
    split
    · exact hn.show trivial
    · exact hn.accept _

theorem Dev.Near.cmdSetup (hn : s.Near L h w) (p2 : UInt8) (pl : Option Bytes) :
    Res.Like L (s.cmdSetup env p2 pl) ((s.setUpl w).cmdSetup (env.setUpl fc fa) p2 pl) := by
  unfold Dev.cmdSetup
  rw [Env.setUpl_cr]
  cases Curve.ofByte p2 with
  | none => exact hn.done
  | some c =>
    cases pl with
    | none => exact hn.done
    | some p =>
      dsimp only
      split
      · exact hn.done
      · split
        · exact hn.done
        · cases Path.read bip32MaxLength (slice p 12 (1 + 4 * (p.getD 12 0).toNat)) with
          | error e => exact hn.done
          | ok path =>
            dsimp only
            cases newAddr env.cr c path with
            | none => exact hn.done
            | some a => exact hn.show trivial

theorem Dev.Near.cmdHmac (hn : s.Near L h w) (p2 : UInt8) (pl : Option Bytes) :
    Res.Like L (s.cmdHmac env p2 pl) ((s.setUpl w).cmdHmac (env.setUpl fc fa) p2 pl) := by
  unfold Dev.cmdHmac
  rw [Env.setUpl_cr]
  cases Curve.ofByte p2 with
  | none => exact hn.done
  | some c =>
    cases pl with
    | none => exact hn.done
    | some p =>
      dsimp only
      split
      · exact hn.done
      · split
        · exact hn.done
        · cases Path.read bip32MaxLength (p.take (1 + 4 * (p.getD 0 0).toNat)) with
          | error e => exact hn.done
          | ok path =>
            dsimp only
            cases env.cr.sign c path hmacKeySha256 with
            | none => exact hn.done
            | some sig =>
              dsimp only
              cases env.cr.sha512 sig with
              | none => exact hn.done
              | some k =>
                dsimp only
                cases env.cr.hmac k (p.drop (1 + 4 * (p.getD 0 0).toNat)) with
                | none => exact hn.done
                | some m => exact hn.done

theorem Dev.Near.cmdAddr (hn : s.Near L h w) (confirm : Bool) (p2 : UInt8) (pl : Option Bytes) :
    Res.Like L (s.cmdAddr env confirm p2 pl) ((s.setUpl w).cmdAddr (env.setUpl fc fa) confirm p2 pl) := by
  refine hn.withPath _ _ _ fun k => ?_
  rw [Env.setUpl_cr]
  cases env.cr.publicKey k.curve k.path with
  | none => exact hn.done
  | some key =>
    dsimp only
    cases Addr.ofKey env.cr k.curve key with
    | none => exact hn.done
    | some a =>
      dsimp only
      split
      · exact hn.show trivial
      · exact hn.accept _

theorem Dev.Near.cmdGetKey (hn : s.Near L h w) (p2 : UInt8) (pl : Option Bytes) :
    Res.Like L (s.cmdGetKey env p2 pl) ((s.setUpl w).cmdGetKey (env.setUpl fc fa) p2 pl) := by
  refine hn.withPath _ _ _ fun k => ?_
  rw [Env.setUpl_cr]
  cases env.cr.publicKey k.curve k.path with
  | none => exact hn.done
  | some key => exact hn.done

/-- What is shown of an operation lies in the received message. -/
theorem operation_within {data rem : Bytes} {ref : MemRef} {bo : Bytes × Bytes}
    (hd : data.length = ref.len) (hr : ref.inFlash = true → ref.off + ref.len ≤ h)
    (hp : Preamble.parse data = .ok (rem, .operation)) (ho : operationNew rem = .ok bo) :
    ref.inFlash = true → ref.off + 1 + 32 ≤ h ∧ ref.off + 1 + (ref.len - 1) ≤ h := by
  intro hin
  have h1 := hr hin
  have h2 := (operationNew_ok (branch := bo.1) (ops := bo.2) ho).1
  obtain ⟨b, rfl, -⟩ := preamble_parse_ok hp
  simp only [List.length_cons] at hd
  omega

theorem Dev.Near.startSign (hn : s.Near L h w) (sendHash : Bool) (p2 : UInt8) (first data : Bytes) (ref : MemRef)
    (hd : data.length = ref.len) (hr : ref.inFlash = true → ref.off + ref.len ≤ h) :
    Res.Like L (s.startSign env sendHash p2 first data ref)
      ((s.setUpl w).startSign (env.setUpl fc fa) sendHash p2 first data ref) := by
  refine hn.withPath _ _ _ fun k => ?_
  have hn1 : Dev.Near L h { s with path := some (k.path, k.curve) } w := ⟨hn.upl, hn.view⟩
  rw [Env.setUpl_cr]
  dsimp only
  cases env.cr.blake2b 32 data with
  | none => exact hn1.done
  | some digest =>
    dsimp only
    cases hp : Preamble.parse data with
    | error e => cases e <;> exact hn1.done
    | ok rp =>
      obtain ⟨rem, p⟩ := rp
      cases p
      case operation =>
        dsimp only
        cases ho : operationNew rem with
        | error e => cases e <;> exact hn1.done
        | ok bo => exact hn1.show (operation_within hd hr hp ho)
      case michelson => exact hn1.show trivial
      all_goals exact hn1.done

theorem Dev.Near.autoSign (hn : s.Near L h w) (sendHash : Bool) (digest msg : Bytes)
    (dc : WaterMark → Except HErr WaterMark) :
    Res.Like L (s.autoSign env sendHash digest msg dc)
      ((s.setUpl w).autoSign (env.setUpl fc fa) sendHash digest msg dc) := by
  refine hn.withRead s.main.read _ fun b => ?_
  cases dc (WaterMark.decode b) with
  | error e => cases e <;> exact hn.done
  | ok m =>
    have hn1 : Dev.Near L h (s.writeMain env m).1 w := ⟨hn.upl, hn.view⟩
    exact hn1.afterWrite _ _ (hn1.bakingSign _ _ _)

theorem Dev.Near.bakerSign (hn : s.Near L h w) (sendHash : Bool) (p2 : UInt8) (first data : Bytes) (ref : MemRef)
    (hd : data.length = ref.len) (hr : ref.inFlash = true → ref.off + ref.len ≤ h) :
    Res.Like L (s.bakerSign env sendHash p2 first data ref)
      ((s.setUpl w).bakerSign (env.setUpl fc fa) sendHash p2 first data ref) := by
  refine hn.withPath _ _ _ fun k => ?_
  refine hn.withKey _ _ fun stored => ?_
  split
  · exact hn.done
  · rw [Env.setUpl_cr]
    cases env.cr.blake2b 32 data with
    | none => exact hn.done
    | some digest =>
      dsimp only
      cases hp : Preamble.parse data with
      | error e => cases e <;> exact hn.done
      | ok rp =>
        obtain ⟨rem, p⟩ := rp
        cases p
        case operation =>
          dsimp only [Dev.handleDelegation]
          cases ho : operationNew rem with
          | error e => cases e <;> exact hn.done
          | ok bo =>
            obtain ⟨b, ops⟩ := bo
            dsimp only
            cases parseNext ops with
            | error e => cases e <;> exact hn.done
            | ok o =>
              cases o with
              | none => exact hn.done
              | some x =>
                obtain ⟨r, op⟩ := x
                cases op
                case delegation d => exact hn.show (operation_within hd hr hp ho)
                case reveal d => exact hn.show (operation_within hd hr hp ho)
                all_goals exact hn.done
        case tenderbakePreendorsement => exact hn.autoSign _ _ _ _
        case tenderbakeEndorsement => exact hn.autoSign _ _ _ _
        case endorsement => exact hn.autoSign _ _ _ _
        case tenderbakeBlock => exact hn.autoSign _ _ _ _
        case block => exact hn.autoSign _ _ _ _
        all_goals exact hn.done

theorem Dev.Near.cmdUpload (hn : s.Near L h w) (hc : env.copyF.Akin fc) (hf : env.appendF.Akin fa) (acc : Accessor)
    (p1 p2 : UInt8) (pl : Option Bytes) {k k' : UInt8 → Bytes → Bytes → MemRef → Dev → Res}
    (hk : ∀ (h' : Nat) (s : Dev) (w : Upl) p2 first data ref, s.Near L h' w → data.length = ref.len →
      (ref.inFlash = true → ref.off + ref.len ≤ h') →
      Res.Like L (k p2 first data ref s) (k' p2 first data ref (s.setUpl w))) :
    Res.Like L (s.cmdUpload env acc p1 p2 pl k) ((s.setUpl w).cmdUpload (env.setUpl fc fa) acc p1 p2 pl k') := by
  have hp := hn.upl.upload hc hf acc p1 p2 pl
  unfold Dev.cmdUpload
  have e1 : (s.setUpl w).upl.upload (env.setUpl fc fa).copyF (env.setUpl fc fa).appendF acc p1 p2 pl =
    w.upload fc fa acc p1 p2 pl := rfl
  simp only [e1]
  rcases hr : s.upl.upload env.copyF env.appendF acc p1 p2 pl with ⟨r1, r2⟩
  rcases hr' : w.upload fc fa acc p1 p2 pl with ⟨r1', r2'⟩
  rw [hr, hr'] at hp
  obtain ⟨rfl, hflat, hlike⟩ := hp
  dsimp only at hflat hlike ⊢
  have hn1 : r2' ≠ .powerLoss → ∃ h', Dev.Near L h' { s with upl := r1 } r1' ∧
      ∀ p2 first data ref, r2' = .complete p2 first data ref →
      data.length = ref.len ∧ (ref.inFlash = true → ref.off + ref.len ≤ h') := fun hne => by
    obtain ⟨h', hle, hl, hcomp⟩ := hlike hne
    exact ⟨h', ⟨hl, fun v hv => (hn.view v hv).mono hle⟩, hcomp⟩
  cases r2' with
  | more => obtain ⟨h', hn1, -⟩ := hn1 (by simp); exact hn1.done
  | err e => obtain ⟨h', hn1, -⟩ := hn1 (by simp); exact hn1.done
  | panic => obtain ⟨h', hn1, -⟩ := hn1 (by simp); exact hn1.done
  | powerLoss => exact ⟨r1', rfl, hflat, fun hf => absurd rfl (hf .powerLoss)⟩
  | complete p2 first data ref =>
    obtain ⟨h', hn1, hcomp⟩ := hn1 (by simp)
    obtain ⟨hd, hr⟩ := hcomp _ _ _ _ rfl
    obtain ⟨w2, he, hf2, hl2⟩ := hk h' _ _ p2 first data ref hn1 hd hr
    have he' : k' p2 first data ref { s.setUpl w with upl := r1' } = _ := he
    dsimp only
    rw [he']
    refine ⟨w2.drop acc, rfl, hf2.drop acc, fun hne => ?_⟩
    obtain ⟨h2, hl2⟩ := hl2 hne
    exact ⟨h2, hl2.upl.drop acc, hl2.view⟩

theorem Dev.Near.exec (hn : s.Near L h w) (hc : env.copyF.Akin fc) (hf : env.appendF.Akin fa) (cfg : Config) (c : Cmd)
    (p1 p2 : UInt8) (pl : Option Bytes) :
    Res.Like L (s.exec cfg env c p1 p2 pl) ((s.setUpl w).exec cfg (env.setUpl fc fa) c p1 p2 pl) := by
  cases c with
  | reset => exact hn.cmdReset _
  | queryMain => exact hn.cmdQueryMain
  | queryAll => exact hn.cmdQueryAll
  | authorize => exact hn.cmdAuthorize _ _ _
  | deauthorize => exact hn.cmdDeauthorize _
  | queryAuth wc => exact hn.cmdQueryAuth _ _
  | setup => exact hn.cmdSetup _ _
  | hmac => exact hn.cmdHmac _ _
  | bakerSign sh =>
    exact hn.cmdUpload hc hf _ _ _ _ fun h' s w p2 first data ref hn hd hr => hn.bakerSign _ _ _ _ _ hd hr
  | sign sh =>
    exact hn.cmdUpload hc hf _ _ _ _ fun h' s w p2 first data ref hn hd hr => hn.startSign _ _ _ _ _ hd hr
  | legacyVersion => exact hn.done
  | git => exact hn.done
  | version => exact hn.done
  | getKey => exact hn.cmdGetKey _ _
  | promptAddr => exact hn.cmdAddr _ _ _
  | getAddr => exact hn.cmdAddr _ _ _

theorem Dev.Near.dispatch (hn : s.Near L h w) (hc : env.copyF.Akin fc) (hf : env.appendF.Akin fa) (cfg : Config)
    (buf : Bytes) (rx : Nat) :
    Res.Like L (s.dispatch cfg env buf rx) ((s.setUpl w).dispatch cfg (env.setUpl fc fa) buf rx) := by
  unfold Dev.dispatch
  split
  · exact hn.done
  · split
    · exact hn.done
    · cases command cfg.build (buf.getD 1 0) with
      | none => exact hn.done
      | some c => exact hn.exec hc hf cfg c _ _ _

/-! ### Steps -/

/-- Two devices that cannot be told apart, running or stopped. -/
structure Dev.Alike (L : Nat) (s : Dev) (w : Upl) : Prop where
  flat : UplFlat L s.upl w
  near : s.running = true → ∃ h, s.Near L h w

/-- Two outcomes of an event that cannot be told apart. -/
def StepLike (L : Nat) (r r' : Dev × Output) : Prop := ∃ w, r' = (r.1.setUpl w, r.2) ∧ r.1.Alike L w

theorem Dev.Near.quiet (hn : s.Near L h w) {o : Output} : StepLike L (s, o) (s.setUpl w, o) :=
  ⟨w, rfl, hn.upl.flat, fun _ => ⟨h, hn⟩⟩

theorem Res.Like.deliver {r r' : Res} (hl : Res.Like L r r') : StepLike L r.deliver r'.deliver := by
  obtain ⟨w, rfl, hf, hn⟩ := hl
  obtain ⟨st, out, sig⟩ := r
  dsimp only at hf hn ⊢
  cases out with
  | fault f => exact ⟨w, rfl, hf, fun hr => by cases hr⟩
  | _ => exact ⟨w, rfl, hf, fun _ => hn (by simp)⟩

theorem Dev.Near.rejects (hn : s.Near L h w) : StepLike L s.reject (s.setUpl w).reject := by
  obtain ⟨_, _, _, _, _, _, _, view, _⟩ := s
  cases view with
  | none => exact ⟨w, rfl, hn.upl.flat, fun _ => ⟨h, hn.upl, fun v hv => by cases hv⟩⟩
  | some v =>
    cases v <;> exact ⟨w, rfl, hn.upl.flat, fun _ => ⟨h, hn.upl, fun v hv => by cases hv⟩⟩

theorem Dev.Near.acceptError (hn : s.Near L h w) : StepLike L s.acceptError (s.setUpl w).acceptError := by
  obtain ⟨_, _, _, _, _, _, _, view, _⟩ := s
  cases view <;> exact ⟨w, rfl, hn.upl.flat, fun _ => ⟨h, hn.upl, fun v hv => by cases hv⟩⟩

theorem Dev.Near.approve (hn : s.Near L h w) :
    StepLike L (s.approve env) ((s.setUpl w).approve (env.setUpl fc fa)) := by
  obtain ⟨m, t, c, k, u, p, z, view, run⟩ := s
  cases view with
  | none => exact ⟨w, rfl, hn.upl.flat, fun _ => ⟨h, hn.upl, fun v hv => by cases hv⟩⟩
  | some v =>
    obtain ⟨w2, he, hf, hl⟩ := (Dev.Near.accept (env := env) (fc := fc) (fa := fa) (w := w)
      (s := ⟨m, t, c, k, u, p, { z with screen := .idle }, some v, run⟩) ⟨hn.upl, hn.view⟩ v).deliver
    refine ⟨w2, congrArg (fun r : Dev × Output => (({ r.1 with view := none } : Dev), r.2)) he, hf, fun hr => ?_⟩
    obtain ⟨h', hl⟩ := hl hr
    exact ⟨h', hl.upl, fun v hv => by cases hv⟩

theorem Dev.Near.onError (hn : s.Near L h w) (closes : Bool) (move : XError → XError) :
    StepLike L (s.onError closes move) ((s.setUpl w).onError closes move) := by
  unfold Dev.onError
  split
  · exact hn.acceptError
  · exact Dev.Near.quiet (s := { s with zui := s.zui.moveError move }) ⟨hn.upl, hn.view⟩

theorem Dev.Near.redraw (hn : s.Near L h w) (u : Upd) : StepLike L (s.redraw u) ((s.setUpl w).redraw u) := by
  cases u with
  | shown z => exact Dev.Near.quiet (s := { s with zui := z }) ⟨hn.upl, hn.view⟩
  | failed z => exact Dev.Near.quiet (s := { s with zui := { z with screen := .error } }) ⟨hn.upl, hn.view⟩
  | rejected z =>
    obtain ⟨w2, he, hf, hl⟩ := Dev.Near.rejects (s := { s with zui := z }) (w := w) ⟨hn.upl, hn.view⟩
    have he' : Dev.reject { s.setUpl w with zui := z } = _ := he
    unfold Dev.redraw
    dsimp only
    rw [he']
    refine ⟨w2, rfl, hf, fun hr => ?_⟩
    obtain ⟨h', hl⟩ := hl hr
    exact ⟨h', hl.upl, hl.view⟩
  | panic => exact ⟨w, rfl, hn.upl.flat, fun hr => by cases hr⟩
  | hang => exact ⟨w, rfl, hn.upl.flat, fun hr => by cases hr⟩

theorem Dev.Near.viewer (hn : s.Near L h w) : (s.setUpl w).viewer (env.setUpl fc fa) = s.viewer env := by
  unfold Dev.viewer
  have hv : (s.setUpl w).view = s.view := rfl
  rw [hv]
  cases hs : s.view with
  | none => rfl
  | some v => exact congrArg some (hn.upl.buf.viewer env.cr (hn.view v hs))

theorem Dev.Near.pressBoth (hn : s.Near L h w) :
    StepLike L (s.pressBoth env) ((s.setUpl w).pressBoth (env.setUpl fc fa)) := by
  unfold Dev.pressBoth
  have hz : (s.setUpl w).zui = s.zui := rfl
  rw [hz]
  have hk : StepLike L
      (match s.zui.chosen with | .approve => s.approve env | .reject => s.reject | .nothing => (s, .quiet))
      (match s.zui.chosen with
        | .approve => (s.setUpl w).approve (env.setUpl fc fa)
        | .reject => (s.setUpl w).reject
        | .nothing => (s.setUpl w, .quiet)) := by
    cases s.zui.chosen with
    | approve => exact hn.approve
    | reject => exact hn.rejects
    | nothing => exact hn.quiet
  suffices hs : ∀ r r' : Dev × Output, StepLike L r r' → StepLike L
      (if r.1.running ∧ r.1.zui.jumps then
        let j := r.1.redraw (r.1.zui.expertJump (r.1.viewer env))
        (j.1, ⟨r.2.reply <|> j.2.reply, r.2.sig, r.2.fault <|> j.2.fault⟩)
      else r)
      (if r'.1.running ∧ r'.1.zui.jumps then
        let j := r'.1.redraw (r'.1.zui.expertJump (r'.1.viewer (env.setUpl fc fa)))
        (j.1, ⟨r'.2.reply <|> j.2.reply, r'.2.sig, r'.2.fault <|> j.2.fault⟩)
      else r') from hs _ _ hk
  intro r r' hk
  obtain ⟨w2, rfl, hf, hl⟩ := hk
  have hz2 : (r.1.setUpl w2).zui = r.1.zui := rfl
  have hr2 : (r.1.setUpl w2).running = r.1.running := rfl
  simp only [hz2, hr2]
  split
  · rename_i hj
    obtain ⟨h', hl⟩ := hl hj.1
    rw [hl.viewer]
    obtain ⟨w3, he3, hf3, hl3⟩ := hl.redraw (r.1.zui.expertJump (r.1.viewer env))
    rw [he3]
    exact ⟨w3, rfl, hf3, hl3⟩
  · exact ⟨w2, rfl, hf, hl⟩

end

/-- Starting both devices anew. -/
theorem UplFlat.init {L : Nat} {u w : Upl} (hf : UplFlat L u w) :
    UplLike L 0 (Upl.init u.buf.flash) (Upl.init w.buf.flash) := by
  refine ⟨rfl, rfl, ⟨⟨rfl, rfl, rfl, hf.buf.len, hf.buf.len'⟩, ?_, ?_, ?_⟩⟩
  · simp
  · intro hx; cases hx
  · intro _; exact Nat.zero_le _

theorem Env.Akin.eq {env env' : Env} (he : env.Akin env') : env' = env.setUpl env'.copyF env'.appendF := by
  obtain ⟨⟩ := env'
  obtain ⟨h1, h2, h3, h4, h5, -, -⟩ := he
  dsimp only at h1 h2 h3 h4 h5
  subst h1 h2 h3 h4 h5
  rfl

theorem Dev.Alike.step {L : Nat} {s : Dev} {w : Upl} (ha : s.Alike L w) {env env' : Env} (he : env.Akin env')
    (cfg : Config) (ev : Event) : StepLike L (s.step cfg env ev) ((s.setUpl w).step cfg env' ev) := by
  have hc := he.copy
  have hf := he.append
  rw [he.eq]
  generalize env'.copyF = fc at hc ⊢
  generalize env'.appendF = fa at hf ⊢
  have hr0 : (s.setUpl w).running = s.running := rfl
  have hz0 : (s.setUpl w).zui = s.zui := rfl
  have hs0 : StepLike L (s, .quiet) (s.setUpl w, .quiet) := ⟨w, rfl, ha⟩
  cases ev with
  | relaunch =>
    exact ⟨Upl.init w.buf.flash, rfl, ha.flat.init.flat, fun _ => ⟨0, ha.flat.init, fun v hv => by cases hv⟩⟩
  | apdu buf rx =>
    simp only [Dev.step, hr0]
    split
    · rename_i hr
      obtain ⟨h, hn⟩ := ha.near hr
      exact (hn.dispatch hc hf cfg buf rx).deliver
    · exact hs0
  | left =>
    simp only [Dev.step, hr0, hz0]
    split
    · rename_i hr
      obtain ⟨h, hn⟩ := ha.near hr
      rw [hn.viewer]
      cases s.zui.screen with
      | review => exact hn.redraw _
      | error => exact hn.onError _ _
      | idle => exact hs0
    · exact hs0
  | right =>
    simp only [Dev.step, hr0, hz0]
    split
    · rename_i hr
      obtain ⟨h, hn⟩ := ha.near hr
      rw [hn.viewer]
      cases s.zui.screen with
      | review => exact hn.redraw _
      | error => exact hn.onError _ _
      | idle => exact hs0
    · exact hs0
  | both =>
    simp only [Dev.step, hr0, hz0]
    split
    · rename_i hr
      obtain ⟨h, hn⟩ := ha.near hr
      cases s.zui.screen with
      | review => exact hn.pressBoth
      | error => exact hn.onError _ _
      | idle => exact hs0
    · exact hs0
  | expert =>
    simp only [Dev.step, hr0, hz0]
    split
    · exact ⟨w, rfl, ha.flat, fun hr => by obtain ⟨h, hn⟩ := ha.near hr; exact ⟨h, hn.upl, hn.view⟩⟩
    · exact hs0

/-! ### C113 -/

/-- What is seen of a run: at each event the answer (or the end of the app), and what the display shows and the buttons
will do from then on. -/
def Dev.seen (cfg : Config) (s : Dev) : List (Env × Event) → List (Output × Zui)
  | [] => []
  | (env, ev) :: es => ((s.step cfg env ev).2, (s.step cfg env ev).1.zui) :: (s.step cfg env ev).1.seen cfg es

/-- The same events, in worlds that go the same way. -/
abbrev SameEvents : List (Env × Event) → List (Env × Event) → Prop := List.Forall₂ fun e f => e.1.Akin f.1 ∧ f.2 = e.2

theorem Dev.Alike.seen {L : Nat} {cfg : Config} {es fs : List (Env × Event)} (he : SameEvents es fs) :
    ∀ {s : Dev} {w : Upl}, s.Alike L w → (s.setUpl w).seen cfg fs = s.seen cfg es := by
  induction he with
  | nil => intro s w _; rfl
  | cons hx _ ih =>
    intro s w ha
    rename_i e f _ _ _
    obtain ⟨env, ev⟩ := e
    obtain ⟨env', ev'⟩ := f
    obtain ⟨hx, rfl⟩ := hx
    obtain ⟨w2, he2, ha2⟩ := ha.step hx cfg ev'
    simp only [Dev.seen, he2, ih ha2]
    rfl

theorem Env.Akin.refl (env : Env) : env.Akin env := ⟨rfl, rfl, rfl, rfl, rfl, .inl rfl, .inl rfl⟩

/-- The flash part of the upload memory keeps its length. -/
theorem Dev.run_flash_length {L : Nat} {cfg : Config} {es : List (Env × Event)} :
    ∀ {s : Dev}, s.Alike L s.upl → (s.run cfg es).1.upl.buf.flash.length = L := by
  induction es with
  | nil => intro s ha; exact ha.flat.buf.len
  | cons e es ih =>
    intro s ha
    obtain ⟨w2, he2, ha2⟩ := ha.step (Env.Akin.refl e.1) cfg e.2
    have hs : s.setUpl s.upl = s := rfl
    rw [hs] at he2
    have hw : (s.step cfg e.1 e.2).1.upl = w2 := congrArg (fun r : Dev × Output => r.1.upl) he2
    rw [← hw] at ha2
    exact ih ha2

theorem Dev.factory_alike (new : NewDevice) : (Dev.factory new).Alike new.upload.length (Dev.factory new).upl := by
  have hf : UplFlat new.upload.length (Dev.factory new).upl (Dev.factory new).upl := ⟨rfl, rfl, rfl, rfl, rfl, rfl, rfl⟩
  exact ⟨hf, fun _ => ⟨0, hf.init, fun v hv => by cases hv⟩⟩

/-- C113: two devices whose records are the same are started anew. Whatever else was left in their memories (an upload
under way, a review, the path of a key, expert mode, and the bytes of earlier messages in the upload area of the flash),
the same events get the same answers and lead to the same screens. -/
theorem C113_forgets (cfg : Config) (s t : Dev) (hp : SamePages s t) (hd : t.zui.display = s.zui.display)
    (hl : t.upl.buf.flash.length = s.upl.buf.flash.length) (es fs : List (Env × Event)) (he : SameEvents es fs) :
    t.relaunch.seen cfg fs = s.relaunch.seen cfg es := by
  have hf : UplLike s.upl.buf.flash.length 0 (Upl.init s.upl.buf.flash) (Upl.init t.upl.buf.flash) := by
    refine ⟨rfl, rfl, ⟨⟨rfl, rfl, rfl, rfl, hl⟩, ?_, ?_, ?_⟩⟩
    · simp
    · intro hx; cases hx
    · intro _; exact Nat.zero_le _
  have ha : s.relaunch.Alike s.upl.buf.flash.length (Upl.init t.upl.buf.flash) :=
    ⟨hf.flat, fun _ => ⟨0, hf, fun v hv => by cases hv⟩⟩
  have ht : t.relaunch = s.relaunch.setUpl (Upl.init t.upl.buf.flash) := by
    obtain ⟨h1, h2, h3, h4⟩ := hp
    simp only [Dev.relaunch, Dev.setUpl, Store.relaunch, h1, h2, h3, h4, hd]
  rw [ht]
  exact ha.seen he

/-- C113 for devices with any past: if their records came to be the same, nothing else of their past can be told after a
restart. -/
theorem C113_pasts (cfg₁ cfg₂ cfg : Config) (new₁ new₂ : NewDevice) (hd : new₂.display = new₁.display)
    (hl : new₂.upload.length = new₁.upload.length) (past₁ past₂ : List (Env × Event))
    (hp : SamePages ((Dev.factory new₁).run cfg₁ past₁).1 ((Dev.factory new₂).run cfg₂ past₂).1)
    (es fs : List (Env × Event)) (he : SameEvents es fs) :
    ((Dev.factory new₂).run cfg₂ past₂).1.relaunch.seen cfg fs =
      ((Dev.factory new₁).run cfg₁ past₁).1.relaunch.seen cfg es := by
  refine C113_forgets cfg _ _ hp ?_ ?_ es fs he
  · rw [Dev.run_display, Dev.run_display]
    show (Zui.init new₂.display).display = (Zui.init new₁.display).display
    rw [hd]
  · rw [Dev.run_flash_length (Dev.factory_alike new₁), Dev.run_flash_length (Dev.factory_alike new₂), hl]

/-- C113 for the wallet: after a restart a wallet cannot be told from a new one, whatever was done with it before. -/
theorem C113_wallet (cfg : Config) (hcfg : cfg.build = .wallet) (new₁ new₂ : NewDevice)
    (hd : new₂.display = new₁.display) (hl : new₂.upload.length = new₁.upload.length) (past : List (Env × Event))
    (es fs : List (Env × Event)) (he : SameEvents es fs) :
    ((Dev.factory new₂).run cfg past).1.relaunch.seen cfg fs = (Dev.factory new₁).seen cfg es := by
  have hp : SamePages (Dev.factory new₁) ((Dev.factory new₂).run cfg past).1 := by
    obtain ⟨h1, h2, h3, h4⟩ := C29_wallet_never_writes_records cfg hcfg new₂ past
    exact ⟨h1, h2, h3, h4⟩
  have hn : (Dev.factory new₁).relaunch = Dev.factory new₁ := by
    obtain ⟨d, up⟩ := new₁
    cases d <;> rfl
  have := C113_pasts cfg cfg cfg new₁ new₂ hd hl [] past hp es fs he
  rwa [show (Dev.factory new₁).run cfg [] = (Dev.factory new₁, []) from rfl, hn] at this

namespace Demo

/-- A new device with zeros in its upload area. -/
def emptyNew : NewDevice := ⟨.small, List.replicate Spec.uploadCapacity 0⟩

/-- Expert mode is switched on, and an upload of more bytes than fit in RAM is left unfinished. -/
def unfinished : List (Env × Event) :=
  ok [.expert, apdu 0x04 0 0 keyPath, apdu 0x04 1 0 (List.replicate 250 7), apdu 0x04 1 0 (List.replicate 250 9)]

/-- Another upload, with a last packet at once. -/
def fromScratch : List (Env × Event) :=
  ok [apdu 0x04 0x81 0 delegation, apdu 0x04 0 0 keyPath, apdu 0x04 0x81 0 delegation]

set_option maxRecDepth 100000 in
/-- The unfinished upload is in the flash and stays there over the restart. Before the restart it can be told that
something happened: the last packet without a first one is not answered as a new device does. After it, all goes as on a
new device; the review of the second upload comes up. -/
example :
    ((Dev.factory emptyNew).run walletApp unfinished).1.upl.buf.flash.take 300 ≠ (List.replicate 300 0) ∧
    ((Dev.factory emptyNew).run walletApp unfinished).1.relaunch.upl.buf.flash.take 300 ≠ (List.replicate 300 0) ∧
    ((Dev.factory emptyNew).run walletApp unfinished).1.seen walletApp fromScratch ≠
      (Dev.factory emptyNew).seen walletApp fromScratch ∧
    ((Dev.factory emptyNew).run walletApp unfinished).1.relaunch.seen walletApp fromScratch =
      (Dev.factory emptyNew).seen walletApp fromScratch ∧
    ((Dev.factory emptyNew).seen walletApp fromScratch).map (fun x => x.1.reply) =
      [some [0x64, 0x00], some [0x90, 0x00], none] := by
  decide +kernel

set_option maxRecDepth 100000 in
/-- In the baking build the records do tell: an authorized key is there after the restart. -/
example :
    ((Dev.factory emptyNew).run bakingApp authorize).1.relaunch.seen bakingApp (ok [apdu 0x0D 0 0 []]) ≠
      (Dev.factory emptyNew).seen bakingApp (ok [apdu 0x0D 0 0 []]) := by
  decide +kernel

end Demo

end Tezos
