import Verif.Host
import Verif.Props.Whole
import Verif.Props.Manage
import Verif.Props.Live
/-
C104: what a test on a computer sees is what a device does whose user reads and approves every review.
-/
namespace Tezos
open Spec

/-! ### Where a handler shows a review -/

/-- What a handler does, as a function of how reviews are shown: it shows none, or it ends by showing `v`. -/
inductive Shows (f : Shower → Res) (P : View → Option (Path × Curve) → Upl → Prop) (s : Dev) : Prop where
  | none (h : ∀ sh sh', f sh = f sh')
  | some (v : View) (p : Option (Path × Curve)) (u : Upl) (ho : P v p u) (h : ∀ sh, f sh = sh v (s.withUpload p u))

theorem withPath_shows {s : Dev} {n : Nat} {p2 : UInt8} {payload : Option Bytes} {k : Shower → PathAndCurve → Res}
    {P : View → Option (Path × Curve) → Upl → Prop}
    (h : ∀ c p, Curve.ofByte p2 = some c.curve → payload = some p → Path.read n p = .ok c.path →
      Shows (fun sh => k sh c) P s) : Shows (fun sh => s.withPath n p2 payload (k sh)) P s := by
  unfold Dev.withPath
  cases hc : Curve.ofByte p2 with
  | none => exact .none fun _ _ => rfl
  | some c =>
    cases hp : payload with
    | none => exact .none fun _ _ => rfl
    | some p =>
      cases hr : Path.read n p with
      | error e => exact .none fun _ _ => by simp only [hr]
      | ok path =>
        simp only [hr]
        exact h ⟨c, path⟩ p hc hp hr

theorem withKey_shows {s : Dev} {e e' : ApduError} {k : Shower → PathAndCurve → Res}
    {P : View → Option (Path × Curve) → Upl → Prop}
    (h : ∀ c, s.storedKey = some c → Shows (fun sh => k sh c) P s) : Shows (fun sh => s.withKey e e' (k sh)) P s := by
  unfold Dev.withKey Dev.withRead
  cases hr : s.key.read with
  | err e => exact .none fun _ _ => rfl
  | panic => exact .none fun _ _ => rfl
  | ok b =>
    cases hb : PathAndCurve.tryFromBytes b with
    | error e => exact .none fun _ _ => by simp only [hb]
    | ok o =>
      cases o with
      | none => exact .none fun _ _ => by simp only [hb]
      | some c =>
        simp only [hb]
        exact h c (by simp [Dev.storedKey, hr, hb])

/-- What a command does, as a function of how reviews are shown: it shows none, or it shows `v` and then frees the upload
buffer if it has used it. -/
inductive Asked (cfg : Config) (env : Env) (c : Cmd) (p1 p2 : UInt8) (payload : Option Bytes) (s : Dev) : Prop where
  | none (h : ∀ sh sh', s.execWith sh cfg env c p1 p2 payload = s.execWith sh' cfg env c p1 p2 payload)
  | some (v : View) (p : Option (Path × Curve)) (u : Upl) (d : Upl → Upl)
      (hd : d = id ∨ ∃ acc, d = fun u => u.drop acc) (ho : Opens env s p1 p2 payload c v p u)
      (h : ∀ sh, s.execWith sh cfg env c p1 p2 payload =
        { sh v (s.withUpload p u) with
          st := { (sh v (s.withUpload p u)).st with upl := d (sh v (s.withUpload p u)).st.upl } })

theorem Shows.asked {cfg : Config} {env : Env} {c : Cmd} {p1 p2 : UInt8} {payload : Option Bytes} {s : Dev}
    (h : Shows (fun sh => s.execWith sh cfg env c p1 p2 payload) (Opens env s p1 p2 payload c) s) :
    Asked cfg env c p1 p2 payload s := by
  cases h with
  | none h => exact .none h
  | some v p u ho h => exact .some v p u id (.inl rfl) ho h

theorem upload_asked {cfg : Config} {env : Env} {c : Cmd} {p1 p2 : UInt8} {payload : Option Bytes} {s : Dev}
    {acc : Accessor} {finish : Shower → UInt8 → Bytes → Bytes → MemRef → Dev → Res}
    (he : ∀ sh, s.execWith sh cfg env c p1 p2 payload = s.cmdUpload env acc p1 p2 payload (finish sh))
    (h : ∀ u q2 first data ref, Completes env s acc p1 p2 payload u q2 first data ref →
      Shows (fun sh => finish sh q2 first data ref { s with upl := u }) (Opens env s p1 p2 payload c)
        { s with upl := u }) : Asked cfg env c p1 p2 payload s := by
  cases hr : s.upl.upload env.copyF env.appendF acc p1 p2 payload with
  | mk u r =>
    cases r with
    | complete q2 first data ref =>
      have hall : ∀ sh, s.execWith sh cfg env c p1 p2 payload =
          { finish sh q2 first data ref { s with upl := u } with
            st := { (finish sh q2 first data ref { s with upl := u }).st with
              upl := (finish sh q2 first data ref { s with upl := u }).st.upl.drop acc } } := fun sh => by
        rw [he]
        unfold Dev.cmdUpload
        rw [hr]
      cases h u q2 first data ref ⟨hr⟩ with
      | none hn =>
        refine .none fun sh sh' => ?_
        rw [hall sh, hall sh', hn sh sh']
      | some v p u' ho hs =>
        refine .some v p u' (fun u => u.drop acc) (.inr ⟨acc, rfl⟩) ho fun sh => ?_
        rw [hall sh, hs sh]
        rfl
    | _ =>
      refine .none fun sh sh' => ?_
      rw [he, he]
      unfold Dev.cmdUpload
      rw [hr]

theorem Dev.asked (cfg : Config) (env : Env) (c : Cmd) (p1 p2 : UInt8) (payload : Option Bytes) (s : Dev) :
    Asked cfg env c p1 p2 payload s := by
  cases c with
  | authorize =>
    refine Shows.asked ?_
    show Shows (fun sh => s.authorizeWith sh env p1 p2 payload) _ s
    unfold Dev.authorizeWith
    by_cases h1 : p1 < 1
    · simp only [h1, if_true]
      exact .none fun _ _ => rfl
    · simp only [h1, if_false]
      refine withPath_shows (k := fun sh k => match newAddr env.cr k.curve k.path with
        | none => s.fail .executionError
        | some a => sh (.authorize k a) s) fun k p hc hp hr => ?_
      cases ha : newAddr env.cr k.curve k.path with
      | none => exact .none fun _ _ => by simp only
      | some a =>
        exact .some _ s.path s.upl (.authorize (UInt8.not_lt.mp h1) hc hp hr ha) fun sh => rfl
  | deauthorize =>
    refine Shows.asked ?_
    show Shows (fun sh => s.deauthorizeWith sh env p1) _ s
    unfold Dev.deauthorizeWith
    by_cases h1 : p1 < 1
    · simp only [h1, if_true]
      exact .none fun _ _ => rfl
    · simp only [h1, if_false]
      refine withKey_shows (k := fun sh k => match newAddr env.cr k.curve k.path with
        | none => s.fail .executionError
        | some a => sh (.deauthorize a) s) fun k hk => ?_
      cases ha : newAddr env.cr k.curve k.path with
      | none => exact .none fun _ _ => by simp only
      | some a => exact .some _ s.path s.upl (.deauthorize (UInt8.not_lt.mp h1) hk ha) fun sh => rfl
  | queryAuth wc =>
    refine Shows.asked ?_
    show Shows (fun sh => s.queryAuthWith sh env wc p1) _ s
    unfold Dev.queryAuthWith
    refine withKey_shows (k := fun sh k => match newAddr env.cr k.curve k.path with
      | none => s.fail .executionError
      | some a => if p1 ≥ 1 then sh (.query k a wc) s else View.accept env (.query k a wc) s) fun k hk => ?_
    cases ha : newAddr env.cr k.curve k.path with
    | none => exact .none fun _ _ => by simp only
    | some a =>
      by_cases h1 : p1 ≥ 1
      · simp only [h1, if_true]
        exact .some _ s.path s.upl (.query h1 hk ha) fun sh => rfl
      · simp only [h1, if_false]
        exact .none fun _ _ => rfl
  | setup =>
    refine Shows.asked ?_
    show Shows (fun sh => s.setupWith sh env p2 payload) _ s
    unfold Dev.setupWith
    cases hc : Curve.ofByte p2 with
    | none => exact .none fun _ _ => rfl
    | some curve =>
      cases hp : payload with
      | none => exact .none fun _ _ => rfl
      | some p =>
        by_cases hl : p.length < 13
        · simp only [hl, if_true]
          exact .none fun _ _ => rfl
        by_cases hn : p.length < 13 + 4 * (p.getD 12 0).toNat
        · simp only [hl, if_false, hn, if_true]
          exact .none fun _ _ => rfl
        simp only [hl, if_false, hn]
        cases hr : Path.read bip32MaxLength (slice p 12 (1 + 4 * (p.getD 12 0).toNat)) with
        | error e => exact .none fun _ _ => rfl
        | ok path =>
          cases ha : newAddr env.cr curve path with
          | none => exact .none fun _ _ => by simp only [ha]
          | some a =>
            simp only [ha]
            exact .some _ s.path s.upl (.setup (k := ⟨curve, path⟩) hc rfl (by omega) (by omega) hr ha) fun sh => rfl
  | promptAddr =>
    refine Shows.asked ?_
    exact addr true fun _ => .inl rfl
  | getAddr =>
    refine Shows.asked ?_
    exact addr (p1 ≥ 1) fun h => .inr ⟨rfl, by simpa using h⟩
  | sign hh =>
    refine upload_asked (finish := fun sh p2 first data ref s => s.startSignWith sh env hh p2 first data ref)
      (fun _ => rfl) fun u q2 first data ref hu => ?_
    unfold Dev.startSignWith
    refine withPath_shows (s := { s with upl := u }) (k := fun sh k =>
      let s := ({ s with upl := u, path := some (k.path, k.curve) } : Dev)
      match env.cr.blake2b 32 data with
      | none => s.fail .executionError
      | some digest =>
        match Preamble.parse data with
        | .error .panic => s.fault .panic
        | .error .err => s.fail .dataInvalid
        | .ok (rem, .operation) =>
          match operationNew rem with
          | .error .panic => s.fault .panic
          | .error .err => s.fail .dataInvalid
          | .ok _ => sh (.sign hh digest (some ⟨ref.inFlash, ref.off + 1, ref.len - 1⟩) data) s
        | .ok (_, .michelson) => sh (.sign hh digest none data) s
        | .ok _ => s.fail .commandNotAllowed) fun k p hc hp hr => ?_
    cases hp
    cases hd : env.cr.blake2b 32 data with
    | none => exact .none fun _ _ => rfl
    | some digest =>
      cases hpre : Preamble.parse data with
      | error e => cases e <;> exact .none fun _ _ => rfl
      | ok x =>
        obtain ⟨rem, pre⟩ := x
        obtain ⟨b, hb, hb'⟩ := preamble_parse_ok hpre
        cases pre with
        | operation =>
          cases ho : operationNew rem with
          | error e => cases e <;> exact .none fun _ _ => by simp only [ho]
          | ok ops =>
            obtain rfl : data = 0x03 :: rem := by rw [hb, show b = 0x03 by simpa using hb']
            exact .some _ (some (k.path, k.curve)) u (.operation hu hc hr hd ho) fun sh => by simp only [ho]; rfl
        | michelson =>
          obtain rfl : data = 0x05 :: rem := by rw [hb, show b = 0x05 by simpa using hb']
          exact .some _ (some (k.path, k.curve)) u (.michelson hu hc hr hd) fun sh => rfl
        | _ => exact .none fun _ _ => rfl
  | bakerSign hh =>
    refine upload_asked (finish := fun sh p2 first data ref s => s.bakerSignWith sh env hh p2 first data ref)
      (fun _ => rfl) fun u q2 first data ref hu => ?_
    unfold Dev.bakerSignWith
    let t : Dev := { s with upl := u }
    refine withPath_shows (s := t) (k := fun sh k =>
      t.withKey .conditionsNotSatisfied .conditionsNotSatisfied fun stored =>
        if stored ≠ k then t.fail .dataInvalid else
        match env.cr.blake2b 32 data with
        | none => t.fail .executionError
        | some digest =>
          match Preamble.parse data with
          | .error .panic => t.fault .panic
          | .error .err => t.fail .dataInvalid
          | .ok (rem, p) =>
            match p with
            | .tenderbakePreendorsement | .tenderbakeEndorsement | .endorsement =>
              t.autoSign env hh digest data (endorsementDecide p rem)
            | .tenderbakeBlock | .block => t.autoSign env hh digest data (blockDecide p rem)
            | .operation => t.delegationWith sh hh digest rem data ⟨ref.inFlash, ref.off + 1, ref.len - 1⟩
            | _ => t.fail .commandNotAllowed) fun k p hc hp hr => ?_
    cases hp
    refine withKey_shows (s := t) (k := fun sh stored =>
        if stored ≠ k then t.fail .dataInvalid else
        match env.cr.blake2b 32 data with
        | none => t.fail .executionError
        | some digest =>
          match Preamble.parse data with
          | .error .panic => t.fault .panic
          | .error .err => t.fail .dataInvalid
          | .ok (rem, p) =>
            match p with
            | .tenderbakePreendorsement | .tenderbakeEndorsement | .endorsement =>
              t.autoSign env hh digest data (endorsementDecide p rem)
            | .tenderbakeBlock | .block => t.autoSign env hh digest data (blockDecide p rem)
            | .operation => t.delegationWith sh hh digest rem data ⟨ref.inFlash, ref.off + 1, ref.len - 1⟩
            | _ => t.fail .commandNotAllowed) fun stored hk => ?_
    by_cases hs : stored = k
    · subst hs
      simp only [ne_eq, not_true_eq_false, if_false]
      cases hd : env.cr.blake2b 32 data with
      | none => exact .none fun _ _ => rfl
      | some digest =>
        cases hpre : Preamble.parse data with
        | error e => cases e <;> exact .none fun _ _ => rfl
        | ok x =>
          obtain ⟨rem, pre⟩ := x
          obtain ⟨b, hb, hb'⟩ := preamble_parse_ok hpre
          cases pre with
          | operation =>
            obtain rfl : data = 0x03 :: rem := by rw [hb, show b = 0x03 by simpa using hb']
            simp only
            unfold Dev.delegationWith
            cases ho : operationNew rem with
            | error e => cases e <;> exact .none fun _ _ => rfl
            | ok y =>
              obtain ⟨branch, ops⟩ := y
              cases hn : parseNext ops with
              | error e => cases e <;> exact .none fun _ _ => by simp only [hn]
              | ok o =>
                cases o with
                | none => exact .none fun _ _ => by simp only [hn]
                | some z =>
                  obtain ⟨rest, op⟩ := z
                  cases op with
                  | delegation d =>
                    exact .some _ s.path u (.baking hu hc hr hk hd ho hn (.inl ⟨_, rfl⟩)) fun sh => by
                      simp only [hn]; rfl
                  | reveal r =>
                    exact .some _ s.path u (.baking hu hc hr hk hd ho hn (.inr ⟨_, rfl⟩)) fun sh => by
                      simp only [hn]; rfl
                  | _ => exact .none fun _ _ => by simp only [hn]
          | _ => exact .none fun _ _ => rfl
    · simp only [ne_eq, hs, not_false_eq_true, if_true]
      exact .none fun _ _ => rfl
  | _ => exact .none fun _ _ => rfl
where
  addr {c : Cmd} (b : Bool) (hb : b = true → c = .promptAddr ∨ (c = .getAddr ∧ 1 ≤ p1)) :
      Shows (fun sh => s.addrWith sh env b p2 payload) (Opens env s p1 p2 payload c) s := by
    unfold Dev.addrWith
    refine withPath_shows (k := fun sh k => match env.cr.publicKey k.curve k.path with
      | none => s.fail .executionError
      | some key =>
        match Addr.ofKey env.cr k.curve key with
        | none => s.fail .dataInvalid
        | some a => if b then sh (.addr a key true) s else View.accept env (.addr a key true) s) fun k p hc hp hr => ?_
    cases hk : env.cr.publicKey k.curve k.path with
    | none => exact .none fun _ _ => rfl
    | some key =>
      cases ha : Addr.ofKey env.cr k.curve key with
      | none => exact .none fun _ _ => by simp only [ha]
      | some a =>
        cases b with
        | false => exact .none fun _ _ => by simp only [ha]; rfl
        | true =>
          simp only [ha, if_true]
          exact .some _ s.path s.upl (.addr (hb rfl) hc hp hr hk ha) fun sh => rfl

/-! ### What does not depend on the display -/

/-- The same device with another display and pending review, and the upload buffer changed by `f`. -/
def Dev.put (z : Zui) (w : Option View) (f : Upl → Upl) (g : Bool → Bool) (s : Dev) : Dev :=
  { s with zui := z, view := w, upl := f s.upl, running := g s.running }

def Res.put (z : Zui) (w : Option View) (f : Upl → Upl) (g : Bool → Bool) (r : Res) : Res :=
  { r with st := r.st.put z w f g }

section
variable {z : Zui} {w : Option View} {f : Upl → Upl} {g : Bool → Bool}

theorem afterWrite_put {s : Dev} {r : WriteRes} {e : ApduError} {k k' : Dev → Res}
    (h : ∀ s, k' (s.put z w f g) = (k s).put z w f g) :
    (s.put z w f g).afterWrite r e k' = (s.afterWrite r e k).put z w f g := by
  cases r with
  | ok => exact h s
  | _ => rfl

theorem withRead_put {s : Dev} {r : ReadRes} {e : ApduError} {k k' : Bytes → Res} (h : ∀ b, k' b = (k b).put z w f g) :
    (s.put z w f g).withRead r e k' = (s.withRead r e k).put z w f g := by
  cases r with
  | ok b => exact h b
  | _ => rfl

theorem withKey_put {s : Dev} {e e' : ApduError} {k k' : PathAndCurve → Res} (h : ∀ b, k' b = (k b).put z w f g) :
    (s.put z w f g).withKey e e' k' = (s.withKey e e' k).put z w f g := by
  refine withRead_put fun b => ?_
  cases PathAndCurve.tryFromBytes b with
  | error e => rfl
  | ok o =>
    cases o with
    | none => rfl
    | some x => exact h x

theorem withPath_put {s : Dev} {n : Nat} {p2 : UInt8} {payload : Option Bytes} {k k' : PathAndCurve → Res}
    (h : ∀ b, k' b = (k b).put z w f g) :
    (s.put z w f g).withPath n p2 payload k' = (s.withPath n p2 payload k).put z w f g := by
  unfold Dev.withPath
  cases Curve.ofByte p2 with
  | none => rfl
  | some c =>
    cases payload with
    | none => rfl
    | some p =>
      cases hr : Path.read n p with
      | error e => simp only [hr]; rfl
      | ok path => simp only [hr]; exact h _

theorem bakingSign_put (env : Env) (sendHash : Bool) (digest msg : Bytes) (s : Dev) :
    (s.put z w f g).bakingSign env sendHash digest msg = (s.bakingSign env sendHash digest msg).put z w f g := by
  refine withKey_put fun k => ?_
  cases env.cr.sign k.curve k.path digest <;> rfl

theorem accept_put (env : Env) (v : View) (s : Dev) : v.accept env (s.put z w f g) = (v.accept env s).put z w f g := by
  cases v with
  | sign h d r m =>
    unfold View.accept
    simp only [show (s.put z w f g).path = s.path from rfl]
    cases s.path with
    | none => rfl
    | some x =>
      simp only
      cases env.cr.sign x.2 x.1 d <;> rfl
  | bakingSign h d r op m => exact bakingSign_put env h d m s
  | addr a k b =>
    unfold View.accept
    simp only
    cases b with
    | false => rfl
    | true => cases a.base58 <;> rfl
  | authorize k a =>
    unfold View.accept
    simp only
    cases env.cr.publicKey k.curve k.path with
    | none => rfl
    | some key => exact afterWrite_put (s := (s.storeKey env k).1) fun s => rfl
  | deauthorize a =>
    exact afterWrite_put (s := (s.removeKey env).1) (k := fun s => s.ok []) (k' := fun s => s.ok []) fun s => rfl
  | query k a b => rfl
  | setup k a m t c =>
    unfold View.accept
    simp only
    cases env.cr.publicKey k.curve k.path with
    | none => rfl
    | some key =>
      refine afterWrite_put (s := (s.storeKey env k).1) fun s => ?_
      refine afterWrite_put (s := (s.writeMain env _).1) fun s => ?_
      refine afterWrite_put (s := (s.writeTest env _).1) fun s => ?_
      exact afterWrite_put (s := (s.writeChain env _).1) fun s => rfl

theorem autoSign_put (env : Env) (h : Bool) (digest msg : Bytes) (d : WaterMark → Except HErr WaterMark) (s : Dev) :
    (s.put z w f g).autoSign env h digest msg d = (s.autoSign env h digest msg d).put z w f g := by
  refine withRead_put fun b => ?_
  cases d (WaterMark.decode b) with
  | error e => cases e <;> rfl
  | ok x => exact afterWrite_put (s := (s.writeMain env x).1) fun s => bakingSign_put env h digest msg s

theorem exec_put (cfg : Config) (env : Env) (c : Cmd) (p1 p2 : UInt8) (payload : Option Bytes) (s : Dev) :
    (s.put z w id g).execWith (mockShow env) cfg env c p1 p2 payload =
      (s.execWith (mockShow env) cfg env c p1 p2 payload).put z w id g := by
  have upload : ∀ (acc : Accessor) (finish : UInt8 → Bytes → Bytes → MemRef → Dev → Res),
      (∀ q2 first data ref s, finish q2 first data ref (s.put z w id g) = (finish q2 first data ref s).put z w id g) →
      (s.put z w id g).cmdUpload env acc p1 p2 payload finish =
        (s.cmdUpload env acc p1 p2 payload finish).put z w id g := by
    intro acc finish h
    unfold Dev.cmdUpload
    simp only [show (s.put z w id g).upl = s.upl from rfl]
    cases s.upl.upload env.copyF env.appendF acc p1 p2 payload with
    | mk u r =>
      cases r with
      | complete q2 first data ref =>
        simp only
        rw [show ({ s.put z w id g with upl := u } : Dev) = Dev.put z w id g { s with upl := u } from rfl, h]
        rfl
      | _ => rfl
  have addr : ∀ b, (s.put z w id g).addrWith (mockShow env) env b p2 payload =
      (s.addrWith (mockShow env) env b p2 payload).put z w id g := by
    intro b
    refine withPath_put fun k => ?_
    cases env.cr.publicKey k.curve k.path with
    | none => rfl
    | some key =>
      simp only
      cases Addr.ofKey env.cr k.curve key with
      | none => rfl
      | some a =>
        cases b with
        | false => exact accept_put env (.addr a key true) s
        | true => exact accept_put env (.addr a key true) s
  cases c with
  | reset =>
    show (s.put z w id g).cmdReset env payload = (s.cmdReset env payload).put z w id g
    unfold Dev.cmdReset
    cases payload with
    | none => rfl
    | some p =>
      simp only
      split
      · rfl
      · unfold Dev.resetHwm
        simp only [show ∀ x, Dev.writeMain env x (s.put z w id g) = ((s.writeMain env x).1.put z w id g,
          (s.writeMain env x).2) from fun _ => rfl]
        refine afterWrite_put (s := (s.writeMain env _).1) fun s => ?_
        simp only [show ∀ x, Dev.writeTest env x (s.put z w id g) = ((s.writeTest env x).1.put z w id g,
          (s.writeTest env x).2) from fun _ => rfl]
        refine afterWrite_put (s := (s.writeTest env _).1) fun s => ?_
        simp only [show (s.put z w id g).chain = s.chain from rfl]
        cases s.chain.read with
        | ok b => rfl
        | panic => rfl
        | err e =>
          cases e with
          | uninitialized =>
            show (Dev.put z w id g (s.writeChain env mainnetChainId).1).afterWrite _ _ (fun s => s.ok []) =
              ((s.writeChain env mainnetChainId).1.afterWrite _ _ (fun s => s.ok [])).put z w id g
            exact afterWrite_put fun s => rfl
          | _ => rfl
  | queryMain =>
    show (s.put z w id g).cmdQueryMain = s.cmdQueryMain.put z w id g
    unfold Dev.cmdQueryMain
    simp only [show (s.put z w id g).main = s.main from rfl]
    cases s.main.read with
    | err e => cases e <;> rfl
    | _ => rfl
  | queryAll =>
    show (s.put z w id g).cmdQueryAll = s.cmdQueryAll.put z w id g
    unfold Dev.cmdQueryAll
    simp only [show (s.put z w id g).allHwm = s.allHwm from rfl]
    cases s.allHwm with
    | err e => cases e <;> rfl
    | _ => rfl
  | authorize =>
    show (s.put z w id g).authorizeWith (mockShow env) env p1 p2 payload = _
    unfold Dev.authorizeWith Dev.execWith Dev.authorizeWith
    simp only
    split
    · rfl
    · refine withPath_put fun k => ?_
      cases newAddr env.cr k.curve k.path with
      | none => rfl
      | some a => exact accept_put env _ s
  | deauthorize =>
    show (s.put z w id g).deauthorizeWith (mockShow env) env p1 = _
    unfold Dev.deauthorizeWith Dev.execWith Dev.deauthorizeWith
    simp only
    split
    · rfl
    · refine withKey_put fun k => ?_
      cases newAddr env.cr k.curve k.path with
      | none => rfl
      | some a => exact accept_put env _ s
  | queryAuth wc =>
    refine withKey_put fun k => ?_
    cases newAddr env.cr k.curve k.path with
    | none => rfl
    | some a =>
      simp only
      split <;> exact accept_put env _ s
  | setup =>
    show (s.put z w id g).setupWith (mockShow env) env p2 payload = (s.setupWith (mockShow env) env p2 payload).put z w id g
    unfold Dev.setupWith
    cases Curve.ofByte p2 with
    | none => rfl
    | some c =>
      cases payload with
      | none => rfl
      | some p =>
        simp only
        split
        · rfl
        · split
          · rfl
          · cases Path.read bip32MaxLength (slice p 12 (1 + 4 * (p.getD 12 0).toNat)) with
            | error e => rfl
            | ok path =>
              simp only
              cases newAddr env.cr c path with
              | none => rfl
              | some a => exact accept_put env _ s
  | hmac =>
    show (s.put z w id g).cmdHmac env p2 payload = (s.cmdHmac env p2 payload).put z w id g
    unfold Dev.cmdHmac
    repeat' (first | rfl | split | (dsimp only; split))
  | getKey =>
    show (s.put z w id g).cmdGetKey env p2 payload = (s.cmdGetKey env p2 payload).put z w id g
    refine withPath_put fun k => ?_
    cases env.cr.publicKey k.curve k.path <;> rfl
  | promptAddr => exact addr true
  | getAddr => exact addr _
  | sign h =>
    refine upload _ _ fun q2 first data ref s => ?_
    refine withPath_put fun k => ?_
    simp only
    rw [show ({ s.put z w id g with path := some (k.path, k.curve) } : Dev) =
      Dev.put z w id g { s with path := some (k.path, k.curve) } from rfl]
    cases env.cr.blake2b 32 data with
    | none => rfl
    | some digest =>
      simp only
      cases Preamble.parse data with
      | error e => cases e <;> rfl
      | ok x =>
        obtain ⟨rem, pre⟩ := x
        cases pre with
        | operation =>
          simp only
          cases operationNew rem with
          | error e => cases e <;> rfl
          | ok y => exact accept_put env _ _
        | michelson => exact accept_put env _ _
        | _ => rfl
  | bakerSign h =>
    refine upload _ _ fun q2 first data ref s => ?_
    refine withPath_put fun k => ?_
    refine withKey_put fun stored => ?_
    split
    · rfl
    cases env.cr.blake2b 32 data with
    | none => rfl
    | some digest =>
      simp only
      cases Preamble.parse data with
      | error e => cases e <;> rfl
      | ok x =>
        obtain ⟨rem, pre⟩ := x
        cases pre with
        | operation =>
          simp only
          unfold Dev.delegationWith
          cases operationNew rem with
          | error e => cases e <;> rfl
          | ok y =>
            simp only
            cases parseNext y.2 with
            | error e => cases e <;> rfl
            | ok o =>
              cases o with
              | none => rfl
              | some x =>
                obtain ⟨rest, op⟩ := x
                cases op with
                | delegation d => exact accept_put env _ _
                | reveal r => exact accept_put env _ _
                | _ => rfl
        | _ => first | rfl | exact autoSign_put env _ _ _ _ _
  | _ => rfl

end

/-! ### One command -/

/-- The display and the pending review after an approval. -/
theorem Approves.put {cfg : Config} {s : Dev} {v : View} (h : Approves s .both v) (env : Env)
    (hf : (v.accept env s.idle).deliver.2.fault = none) :
    ∃ z, s.step cfg env .both = ((v.accept env s.idle).deliver.1.put z none id id, (v.accept env s.idle).deliver.2) := by
  obtain ⟨hrun, -, ⟨k, l1, l2, hscr⟩, hact, hview⟩ := h
  have hstep : s.step cfg env .both = s.pressBoth env := by simp only [Dev.step, hrun, if_true, hscr]
  have happ : s.approve env =
      ({ (v.accept env s.idle).deliver.1 with view := none }, (v.accept env s.idle).deliver.2) := by
    unfold Dev.approve
    dsimp only
    split
    · rename_i hw
      rw [hview] at hw
      cases hw
    · rename_i w hw
      rw [hview] at hw
      cases hw
      rfl
  rw [hstep]
  unfold Dev.pressBoth
  simp only [hact, happ]
  split
  · simp only [Dev.viewer, Option.map_none, Zui.expertJump, reviewUpdate, Dev.redraw, Output.quiet, hf]
    refine ⟨_, Prod.ext rfl ?_⟩
    generalize (v.accept env s.idle).deliver.2 = o at hf ⊢
    obtain ⟨a, b, c⟩ := o
    simp only at hf
    subst hf
    cases a <;> rfl
  · exact ⟨_, rfl⟩

/-- A review all items of which can be displayed, and that ends where it says. -/
def Readable (w : Viewer) : Prop :=
  ∃ num, w.numItems = .ok num ∧ 0 < num.toNat ∧ (∀ i < num.toNat, ∃ f, w.item (UInt8.ofNat i) = .ok f) ∧
    w.item num = .error .noData

/-- Every review that the request brings up can be read. -/
def Dev.Presentable (cfg : Config) (env : Env) (buf : Bytes) (rx : Nat) (s : Dev) : Prop :=
  ∀ c v p u, Received cfg s (.apdu buf rx) buf rx c →
    Opens env s (buf.getD 2 0) (buf.getD 3 0) (apduPayload buf) c v p u → Readable (v.viewer env.cr u.buf)

/-- A request on the device `d`: the events and what is seen of them, where the computer, in state `s`, sees `o`. The
request is answered at once, or the user reads a review, all items of it, approves it, and this is answered. -/
inductive Played (cfg : Config) (s d : Dev) (env : Env) (buf : Bytes) (rx : Nat) (o : Output) :
    List (Env × Event) → List Output → Prop where
  | plain : Played cfg s d env buf rx o [(env, .apdu buf rx)] [o]
  | read (c : Cmd) (v : View) (p : Option (Path × Curve)) (u : Upl) (fs : List Field)
      (ho : Opens env s (buf.getD 2 0) (buf.getD 3 0) (apduPayload buf) c v p u)
      (hn : (v.viewer env.cr u.buf).numItems = .ok (UInt8.ofNat fs.length))
      (hi : ∀ (i : Nat) (f : Field), fs[i]? = some f → (v.viewer env.cr u.buf).item (UInt8.ofNat i) = .ok f)
      (hread : ((d.step cfg env (.apdu buf rx)).1.trace cfg
        (readAndApprove env (readingScreens d.zui.display fs)).dropLast).map (fun x => x.st.zui.screen) =
          readingScreens d.zui.display fs) :
      Played cfg s d env buf rx o ((env, .apdu buf rx) :: readAndApprove env (readingScreens d.zui.display fs))
        (.quiet :: ((readingScreens d.zui.display fs).map (fun _ => .quiet) ++ [o]))

theorem Opens.put {env : Env} {s : Dev} {p1 p2 : UInt8} {payload : Option Bytes} {c : Cmd} {v : View}
    {p : Option (Path × Curve)} {u : Upl} {z : Zui} {w : Option View}
    (h : Opens env (s.put z w id id) p1 p2 payload c v p u) :
    Opens env s p1 p2 payload c v p u := by
  have hput : ∀ {acc u q2 first data ref}, Completes env (s.put z w id id) acc p1 p2 payload u q2 first data ref →
      Completes env s acc p1 p2 payload u q2 first data ref := fun h => ⟨h.eq⟩
  cases h with
  | operation hu hc hp hd ho => exact .operation (hput hu) hc hp hd ho
  | michelson hu hc hp hd => exact .michelson (hput hu) hc hp hd
  | baking hu hc hp hk hd ho hn hop => exact .baking (hput hu) hc hp hk hd ho hn hop
  | _ => constructor <;> assumption

theorem Opens.viewer_same {env : Env} {s : Dev} {p1 p2 : UInt8} {payload : Option Bytes} {c : Cmd} {v : View}
    {p : Option (Path × Curve)} {u : Upl} (ho : Opens env s p1 p2 payload c v p u) {b : SwapBuf}
    (hb : SameMemory u.buf b) (cr : Crypto) : v.viewer cr b = v.viewer cr u.buf := by
  cases v with
  | sign h d r m => rw [ho.viewer_sign hb, ho.viewer_sign ⟨rfl, rfl⟩]
  | bakingSign h d r op m =>
    obtain ⟨rem, rest, -, -, -, h⟩ := ho.viewer_baking
    rw [h _ _ hb, h _ _ ⟨rfl, rfl⟩]
  | _ => rfl

theorem deliver_put (z : Zui) (w : Option View) (f : Upl → Upl) (r : Res) :
    (r.put z w f id).deliver = (r.deliver.1.put z w f id, r.deliver.2) := by
  obtain ⟨st, out, sig⟩ := r
  cases out <;> rfl

/-- One request: the device, whose user reads and approves, ends where the test on the computer does, but for the
display. -/
theorem Dev.play {cfg : Config} {env : Env} {buf : Bytes} {rx : Nat} {s : Dev} (hrun : s.running = true)
    (he : env.cr.Sized) (hl : s.Presentable cfg env buf rx) (hf : (s.hostApdu cfg env buf rx).2.fault = none)
    (z : Zui) (w : Option View) :
    ∃ es os z' w', Played cfg s (s.put z w id id) env buf rx (s.hostApdu cfg env buf rx).2 es os ∧
      (s.put z w id id).run cfg es = ((s.hostApdu cfg env buf rx).1.put z' w' id id, os) := by
  by_cases hr : ∃ c, Received cfg s (.apdu buf rx) buf rx c
  · obtain ⟨c, hr⟩ := hr
    have hr' : Received cfg (s.put z w id id) (.apdu buf rx) buf rx c := ⟨rfl, hr.running, hr.len, hr.cla, hr.cmd⟩
    have hhost : s.hostApdu cfg env buf rx =
        (s.execWith (mockShow env) cfg env c (buf.getD 2 0) (buf.getD 3 0) (apduPayload buf)).deliver := by
      obtain ⟨-, hrun, hlen, hcla, ins, hins, hcmd⟩ := hr
      have h0 : buf.getD 0 0 = 0x80 := by rw [List.getD_eq_getElem?_getD, hcla]; rfl
      have h1 : buf.getD 1 0 = ins := by rw [List.getD_eq_getElem?_getD, hins]; rfl
      simp only [Dev.hostApdu, hrun, if_true, Dev.dispatchWith, h0, h1, hcmd]
      rw [if_neg (by omega), if_neg (by decide)]
    have hput := exec_put (z := z) (w := w) (g := id) cfg env c (buf.getD 2 0) (buf.getD 3 0) (apduPayload buf) s
    have hdev := hr'.step env
    rw [← Dev.exec_eq] at hdev
    cases Dev.asked cfg env c (buf.getD 2 0) (buf.getD 3 0) (apduPayload buf) (s.put z w id id) with
    | none h =>
      refine ⟨_, _, z, w, .plain, ?_⟩
      rw [h _ (mockShow env), hput, deliver_put, ← hhost] at hdev
      simp only [Dev.run, hdev]
    | some v p u d hd ho h =>
      obtain ⟨num, hn, hpos, hi, hend⟩ := hl c v p u hr ho.put
      have hex := h fun v s => s.show env v
      rw [Dev.exec_eq] at hex
      obtain ⟨hopen, hon, z1, hstep⟩ := Dev.brings (u' := d u) he hr' ho (by rw [hex])
        (by rw [hex]; simp only [Dev.show_upl]; rfl)
        (by rcases hd with rfl | ⟨acc, rfl⟩; exacts [.inl rfl, .inr ⟨acc, rfl⟩]) hn hpos hi
      have hmem : SameMemory u.buf (d u).buf := by
        rcases hd with rfl | ⟨acc, rfl⟩
        · exact ⟨rfl, rfl⟩
        · exact SameMemory.drop acc u
      have hw : v.viewer env.cr u.buf =
          v.viewer env.cr (Moment.next cfg ⟨s.put z w id id, env, .apdu buf rx, .quiet⟩).upl.buf := by
        rw [Moment.next, hstep, ho.viewer_same hmem]
      obtain ⟨fs, z2, f1, f2, f3, f4, f5⟩ := (hopen .quiet).read (m := ⟨s.put z w id id, env, .apdu buf rx, .quiet⟩) he hon
        rfl hw hn hpos hi hend
      have hnext : Moment.next cfg ⟨s.put z w id id, env, .apdu buf rx, .quiet⟩ =
          ((s.put z w id id).step cfg env (.apdu buf rx)).1 := rfl
      rw [hnext] at f3 f4
      rw [hnext, hstep] at f5
      rw [h (mockShow env)] at hput
      generalize hR : s.execWith (mockShow env) cfg env c (buf.getD 2 0) (buf.getD 3 0) (apduPayload buf) = R
        at hput hhost
      have hA := accept_put (z := { z2 with screen := .idle }) (w := some v) (f := d) (g := id) env v
        ((s.put z w id id).withUpload p u)
      have hidle : Dev.put { z2 with screen := .idle } (some v) d id ((s.put z w id id).withUpload p u) =
          Dev.idle { s.put z w id id with path := p, upl := d u, view := some v, zui := z2 } := rfl
      rw [hidle] at hA
      have hAR : ∀ z' w', Res.put z' w' d id (v.accept env ((s.put z w id id).withUpload p u)) = R.put z' w' id id := by
        intro z' w'
        exact congrArg (Res.put z' w' id id) hput
      have hdel : ∀ z' w', ((v.accept env ((s.put z w id id).withUpload p u)).deliver.1.put z' w' d id,
          (v.accept env ((s.put z w id id).withUpload p u)).deliver.2) = (R.deliver.1.put z' w' id id, R.deliver.2) := by
        intro z' w'
        rw [← deliver_put, ← deliver_put, hAR]
      have hAd : (v.accept env
          (Dev.idle { s.put z w id id with path := p, upl := d u, view := some v, zui := z2 })).deliver =
          (R.deliver.1.put { z2 with screen := .idle } (some v) id id, R.deliver.2) := by
        rw [hA, deliver_put]
        exact hdel _ _
      obtain ⟨z3, hz⟩ := f5.put (cfg := cfg) env (by rw [hAd]; rw [← hhost]; exact hf)
      rw [hAd] at hz
      refine ⟨_, _, z3, none, .read c v p u fs ho.put ?_ f2 ?_, ?_⟩
      · rw [hn, f1]; simp
      · rw [readAndApprove, List.dropLast_concat]
        exact f4
      · have hlast : ((s.put z w id id).step cfg env (.apdu buf rx)).1.run cfg
            (readAndApprove env (readingScreens (s.put z w id id).zui.display fs)) =
              (R.deliver.1.put z3 none id id, (readingScreens (s.put z w id id).zui.display fs).map (fun _ => .quiet) ++
                [R.deliver.2]) := by
          refine Prod.ext ?_ ?_
          · rw [readAndApprove, Dev.run_append, f3]
            simp only [Dev.run, hstep, hz]
            rfl
          · rw [readAndApprove, Dev.run_append_out, f3]
            simp only [Dev.run, hstep, hz, List.map_const']
        rw [Dev.run, hlast, hhost, hstep]
  · refine ⟨_, _, z, w, .plain, ?_⟩
    have hno : ∀ (c : Cmd), command cfg.build (buf.getD 1 0) = some c →
        ¬ (buf.length < 5 ∨ rx < 5 ∨ buf.length < rx) → buf.getD 0 0 = 0x80 → False := by
      intro c hc hlen hcla
      refine hr ⟨c, rfl, hrun, by omega, ?_, buf.getD 1 0, ?_, hc⟩
      · rw [← hcla, List.getD_eq_getElem?_getD, List.getElem?_eq_getElem (by omega)]; rfl
      · rw [List.getD_eq_getElem?_getD, List.getElem?_eq_getElem (by omega)]; rfl
    simp only [Dev.run, Dev.step, Dev.hostApdu, hrun, show (s.put z w id id).running = true from hrun, if_true,
      Dev.dispatch, Dev.dispatchWith]
    by_cases h1 : buf.length < 5 ∨ rx < 5 ∨ buf.length < rx
    · simp only [if_pos h1]; rfl
    by_cases h2 : buf.getD 0 0 = 0x80
    · cases hc : command cfg.build (buf.getD 1 0) with
      | none => simp only [if_neg h1, h2, ne_eq, not_true_eq_false, if_false]; rfl
      | some c => exact (hno c hc h1 h2).elim
    · simp only [if_neg h1, ne_eq, h2, not_false_eq_true, if_true]; rfl

/-! ### A test from beginning to end -/

/-- The device `d` is in the state `s`, but for the display and a review that may be pending. -/
def ApartFromDisplay (s d : Dev) : Prop := d = { s with zui := d.zui, view := d.view }

/-- Every review that the test brings up can be read. -/
def Dev.PresentableAll (cfg : Config) : Dev → List (Env × Bytes × Nat) → Prop
  | _, [] => True
  | s, (env, buf, rx) :: rs =>
    env.cr.Sized ∧ s.Presentable cfg env buf rx ∧ (s.hostApdu cfg env buf rx).1.PresentableAll cfg rs

/-- The requests of a test, sent to the device `d` whose user reads and approves every review. -/
inductive PlayedAll (cfg : Config) : Dev → Dev → List (Env × Bytes × Nat) → List (Env × Event) → List Output → Prop where
  | nil (s d : Dev) : PlayedAll cfg s d [] [] []
  | cons {s d : Dev} {env : Env} {buf : Bytes} {rx : Nat} {rs : List (Env × Bytes × Nat)} {es es' : List (Env × Event)}
      {os os' : List Output} (h : Played cfg s d env buf rx (s.hostApdu cfg env buf rx).2 es os)
      (t : PlayedAll cfg (s.hostApdu cfg env buf rx).1 (d.run cfg es).1 rs es' os') :
      PlayedAll cfg s d ((env, buf, rx) :: rs) (es ++ es') (os ++ os')

theorem Played.replies {cfg : Config} {s d : Dev} {env : Env} {buf : Bytes} {rx : Nat} {o : Output}
    {es : List (Env × Event)} {os : List Output} (h : Played cfg s d env buf rx o es os) {α : Type}
    {f : Output → Option α} (hq : f .quiet = none) : os.filterMap f = [o].filterMap f := by
  cases h with
  | plain => rfl
  | read c v p u fs ho hn hi hread =>
    rw [List.filterMap_cons_none hq, List.filterMap_append]
    have : (List.map (fun _ => Output.quiet) (readingScreens d.zui.display fs)).filterMap f = [] := by
      simp [hq]
    rw [this]
    rfl

theorem hostApdu_running {cfg : Config} {env : Env} {buf : Bytes} {rx : Nat} {s : Dev} (hrun : s.running = true)
    (hf : (s.hostApdu cfg env buf rx).2.fault = none) : (s.hostApdu cfg env buf rx).1.running = true := by
  have hs : s.put s.zui s.view id (fun _ => true) = s := by
    obtain ⟨⟩ := s
    simp only at hrun
    subst hrun
    rfl
  have hexec : ∀ c p1 p2 payload, (s.execWith (mockShow env) cfg env c p1 p2 payload).st.running = true := by
    intro c p1 p2 payload
    have h := exec_put (z := s.zui) (w := s.view) (g := fun _ => true) cfg env c p1 p2 payload s
    rw [hs] at h
    rw [h]
    rfl
  have hdel : ∀ r : Res, r.st.running = true → r.deliver.2.fault = none → r.deliver.1.running = true := by
    intro r h1 h2
    unfold Res.deliver at *
    split at * <;> first | exact h1 | cases h2
  simp only [Dev.hostApdu, hrun, if_true] at hf ⊢
  refine hdel _ ?_ hf
  unfold Dev.dispatchWith
  split
  · exact hrun
  split
  · exact hrun
  split
  · exact hrun
  · exact hexec _ _ _ _

/-- **C104.** What a test on a computer sees is what a device does whose user reads and approves every review. -/
theorem C104_session (cfg : Config) (s d : Dev) (hrun : s.running = true) (hd : ApartFromDisplay s d)
    (rs : List (Env × Bytes × Nat)) (hl : s.PresentableAll cfg rs)
    (hf : ∀ o ∈ (s.hostRun cfg rs).2, o.fault = none) :
    ∃ es os, PlayedAll cfg s d rs es os ∧ (d.run cfg es).2 = os ∧
      ApartFromDisplay (s.hostRun cfg rs).1 (d.run cfg es).1 ∧
      (os.filterMap Output.reply = (s.hostRun cfg rs).2.filterMap Output.reply) ∧
      (os.filterMap Output.sig = (s.hostRun cfg rs).2.filterMap Output.sig) ∧ ∀ o ∈ os, o.fault = none := by
  induction rs generalizing s d with
  | nil => exact ⟨[], [], .nil s d, rfl, hd, rfl, rfl, fun o ho => by cases ho⟩
  | cons r rs ih =>
    obtain ⟨env, buf, rx⟩ := r
    obtain ⟨he, hp, hl⟩ := hl
    have hf0 : (s.hostApdu cfg env buf rx).2.fault = none := hf _ List.mem_cons_self
    obtain ⟨es, os, z, w, h1, h2⟩ := Dev.play hrun he hp hf0 d.zui d.view
    have hd' : s.put d.zui d.view id id = d := hd.symm
    rw [hd'] at h1 h2
    obtain ⟨es', os', t1, t2, t3, t4, t5, t6⟩ := ih (s.hostApdu cfg env buf rx).1
      ((s.hostApdu cfg env buf rx).1.put z w id id) (hostApdu_running hrun hf0) rfl hl
      (fun o ho => hf o (List.mem_cons_of_mem _ ho))
    refine ⟨es ++ es', os ++ os', .cons h1 (by rw [h2]; exact t1), ?_, ?_, ?_, ?_, ?_⟩
    · rw [Dev.run_append_out, h2, t2]
    · rw [Dev.run_append, h2]
      exact t3
    · rw [List.filterMap_append, h1.replies rfl, t4, ← List.filterMap_append]
      rfl
    · rw [List.filterMap_append, h1.replies rfl, t5, ← List.filterMap_append]
      rfl
    · intro o ho
      rcases List.mem_append.mp ho with ho | ho
      · have := h1.replies (f := Output.fault) rfl
        cases hfo : o.fault with
        | none => rfl
        | some x =>
          have hm : x ∈ os.filterMap Output.fault := List.mem_filterMap.mpr ⟨o, ho, hfo⟩
          rw [this] at hm
          simp [hf0] at hm
      · exact t6 o ho

/-! ### Which reviews can be read -/

/-- Reviews that are not of operations can be read. -/
theorem Opens.readable {env : Env} (hw : env.cr.Works) {s : Dev} {p1 p2 : UInt8} {payload : Option Bytes} {c : Cmd}
    {v : View} {p : Option (Path × Curve)} {u : Upl} (ho : Opens env s p1 p2 payload c v p u)
    (h1 : ∀ h d r m, v ≠ .sign h d (some r) m) (h2 : ∀ h d r op m, v ≠ .bakingSign h d r op m) (b : SwapBuf) :
    Readable (v.viewer env.cr b) := by
  have hfirm := (ho.firm hw.sized).address
  have one : ∀ w : Viewer, w.numItems = .ok 1 → (∃ f, w.item 0 = .ok f) → w.item 1 = .error .noData → Readable w :=
    fun w a b c => ⟨1, a, by decide, fun i hi => by
      obtain rfl : i = 0 := by simp at hi; omega
      exact b, c⟩
  have two : ∀ w : Viewer, w.numItems = .ok 2 → (∃ f, w.item 0 = .ok f) → (∃ f, w.item 1 = .ok f) →
      w.item 2 = .error .noData → Readable w :=
    fun w a b c d => ⟨2, a, by decide, fun i hi => by
      have : i < 2 := hi
      match i, this with
      | 0, _ => exact b
      | 1, _ => exact c, d⟩
  have addr : ∀ {a : Addr} {t : Bytes}, v.address = some a →
      ∃ f, (do return (⟨t, ← a.base58⟩ : Field) : Except VErr Field) = .ok f := by
    intro a t ha
    refine ⟨⟨t, base58 a.bytes⟩, ?_⟩
    unfold Addr.base58
    rw [base58_fits_address (hfirm a ha)]
    rfl
  cases ho with
  | operation => exact (h1 _ _ _ _ rfl).elim
  | baking => exact (h2 _ _ _ _ _ rfl).elim
  | michelson => exact one _ rfl ⟨_, rfl⟩ rfl
  | addr => exact one _ rfl (addr rfl) rfl
  | authorize => exact two _ rfl ⟨_, rfl⟩ (addr rfl) rfl
  | deauthorize => exact two _ rfl ⟨_, rfl⟩ (addr rfl) rfl
  | query => exact two _ rfl ⟨_, rfl⟩ (addr rfl) rfl
  | setup =>
    refine ⟨5, rfl, by decide, fun i hi => ?_, rfl⟩
    have : i < 5 := hi
    match i, this with
    | 0, _ => exact ⟨_, rfl⟩
    | 1, _ => exact addr rfl
    | 2, _ =>
      exact ((renders_chain env.cr _ "Chain").shown hw).mpr (by unfold chainShown; split; trivial; split <;> trivial)
    | 3, _ => exact ⟨_, rfl⟩
    | 4, _ => exact ⟨_, rfl⟩

/-- The review of valid operations can be read, unless it has more than 255 items or a number is too large. -/
theorem Readable.batch {cr : Crypto} (hw : cr.Works) (digest branch : Bytes) (hb : branch.length = 32)
    (os : List Operation) (hv : ∀ o ∈ os, o.Valid) (rest : Bytes) (hr : IsOpaque rest)
    (hn : (batchReview branch os rest).length < 256) (hread : ∀ e ∈ batchReview branch os rest, e.2.Readable) :
    Readable (reviewOf cr digest (0x03 :: (branch ++ (os.flatMap Operation.encode ++ rest)))) := by
  have hrev := reviewOf_batch cr digest hb (os.flatMap Operation.encode ++ rest)
  obtain ⟨hnum, hrend⟩ := C57_review cr branch hb os hv rest hr hn
  have hp := parseOps_batch os hv rest hr
  have hlen := batchReview_length branch os rest
  have hto : (UInt8.ofNat (batchReview branch os rest).length).toNat = (batchReview branch os rest).length := by
    simp only [UInt8.toNat_ofNat']; omega
  have hpos : 0 < (batchReview branch os rest).length := by simp [batchReview]
  rw [hrev]
  refine ⟨_, hnum, by rw [hto]; exact hpos, fun i hi => ?_, ?_⟩
  · rw [hto] at hi
    exact ((hrend i _ (List.getElem?_eq_getElem hi)).shown hw).mpr (hread _ (List.getElem_mem hi))
  · show signOpItem _ _ _ _ = _
    rw [(C39_item_order cr branch _ _ hp (by rw [← hlen]; exact hn)).2 _ (by
      intro h
      rw [h] at hto
      simp at hto
      omega), hto, List.getElem?_eq_none_iff.mpr (by
        rw [allFields_length]
        unfold totalItems at hlen
        omega)]

/-- The same for the first operation of a message, a delegation or a revelation, as the baking instructions show it. -/
theorem Readable.first {cr : Crypto} (hw : cr.Works) (branch : Bytes) (hb : branch.length = 32) (o : Operation)
    (hv : o.Valid) (hkind : (∃ m d, o = .delegation m d) ∨ ∃ m kind key, o = .reveal m kind key)
    (hread : ∀ e ∈ batchReview branch [o] [], e.2.Readable) : Readable (firstOpReview cr branch (Op.ofSpec o)) := by
  have hlen : (batchReview branch [o] []).length = (Op.ofSpec o).uiItems + 1 := by
    simp [batchReview, opaqueReview, Op.uiItems_review]
  have h8 : (Op.ofSpec o).uiItems = 7 := by rcases hkind with ⟨m, d, rfl⟩ | ⟨m, kind, key, rfl⟩ <;> rfl
  have hrend : ∀ (n : Nat) e, (batchReview branch [o] [])[n]? = some e →
      Renders cr ((firstOpReview cr branch (Op.ofSpec o)).item (UInt8.ofNat n)) e := by
    intro n e he
    cases n with
    | zero =>
      cases he
      exact (rendersText_branch (cr := cr) hb).item "Operation"
    | succ n =>
      have hlt := (List.getElem?_eq_some_iff.mp he).1
      have hto : (UInt8.ofNat (n + 1)).toNat = n + 1 := by simp only [UInt8.toNat_ofNat']; omega
      have hne : UInt8.ofNat (n + 1) ≠ 0 := by intro h; rw [h] at hto; simp at hto
      have hsub : (UInt8.ofNat (n + 1) - 1).toNat = n := by
        rw [UInt8.toNat_sub_of_le _ _ (by rw [UInt8.le_iff_toNat_le, hto]; simp), hto]; rfl
      simp only [firstOpReview, if_neg hne, hsub]
      refine C57_operation_items cr o hv ?_ n e ?_
      · rw [← Op.uiItems_review]; omega
      · simpa [batchReview, opaqueReview] using he
  refine ⟨8, by simp only [firstOpReview, h8]; rfl, by decide, ?_, ?_⟩
  · intro i hi
    have : (8 : UInt8).toNat = 8 := rfl
    have hi' : i < (batchReview branch [o] []).length := by omega
    exact ((hrend i _ (List.getElem?_eq_getElem hi')).shown hw).mpr (hread _ (List.getElem_mem hi'))
  · rcases hkind with ⟨m, d, rfl⟩ | ⟨m, kind, key, rfl⟩ <;> rfl

/-- The message is a batch of valid operations with at most 255 items, and no number is too large. -/
def ReadableBatch (msg : Bytes) : Prop :=
  ∃ branch os rest, msg = 0x03 :: (branch ++ (os.flatMap Operation.encode ++ rest)) ∧ branch.length = 32 ∧
    (∀ o ∈ os, o.Valid) ∧ IsOpaque rest ∧ (batchReview branch os rest).length < 256 ∧
    ∀ e ∈ batchReview branch os rest, e.2.Readable

/-- The message begins with a valid delegation or revelation, and no number in it is too large. -/
def ReadableFirst (msg : Bytes) : Prop :=
  ∃ branch o tail, msg = 0x03 :: (branch ++ (o.encode ++ tail)) ∧ branch.length = 32 ∧ Operation.Valid o ∧
    ((∃ m d, o = .delegation m d) ∨ ∃ m kind key, o = .reveal m kind key) ∧
    ∀ e ∈ batchReview branch [o] [], e.2.Readable

/-- C104: the reviews of a test can be read if its operations are valid, have at most 255 items in a message, and no
number is too large. All other reviews can be read. -/
theorem C104_presentable (cfg : Config) (env : Env) (hw : env.cr.Works) (buf : Bytes) (rx : Nat) (s : Dev)
    (h1 : ∀ u q2 first rem ref, Completes env s .sign (buf.getD 2 0) (buf.getD 3 0) (apduPayload buf) u q2 first
      (0x03 :: rem) ref → ReadableBatch (0x03 :: rem))
    (h2 : ∀ u q2 first rem ref, Completes env s .baking (buf.getD 2 0) (buf.getD 3 0) (apduPayload buf) u q2 first
      (0x03 :: rem) ref → ReadableFirst (0x03 :: rem)) : s.Presentable cfg env buf rx := by
  intro c v p u hrec ho
  have hoth := ho.readable hw
  cases ho with
  | operation hu hc hp hd hop =>
    rename_i h q2 first rem ref k digest ops
    have ho := Opens.operation (h := h) hu hc hp hd hop
    rw [ho.viewer_sign ⟨rfl, rfl⟩]
    obtain ⟨branch, os, rest, hm, a1, a2, a3, a4, a5⟩ := h1 _ _ _ _ _ hu
    rw [hm]
    exact Readable.batch hw _ branch a1 os a2 rest a3 a4 a5
  | baking hu hc hp hk hd hop hn hop' =>
    rename_i h q2 first rem ref k digest branch ops rest op
    have ho := Opens.baking (h := h) hu hc hp hk hd hop hn hop'
    obtain ⟨branch', o, tail, hm, a1, a2, a3, a4⟩ := h2 _ _ _ _ _ hu
    obtain ⟨rem', rest', e1, -, e3, e2⟩ := ho.viewer_baking
    rw [e2 _ _ ⟨rfl, rfl⟩]
    cases e1
    cases hm
    have hdrop : (branch' ++ (o.encode ++ tail)).drop 32 = o.encode ++ tail := by
      rw [← a1]; exact List.drop_left
    have htake : (branch' ++ (o.encode ++ tail)).take 32 = branch' := by
      rw [← a1]; exact List.take_left
    have hnext : parseNext (o.encode ++ tail) = .ok (some (tail, Op.ofSpec o)) :=
      parseNext_of (C31_decode_encode o a2 tail)
    rw [hdrop, hnext] at e3
    cases e3
    rw [htake]
    exact Readable.first hw branch' a1 o a2 a3 a4
  | _ => exact hoth (fun _ _ _ _ h => by cases h) (fun _ _ _ _ _ h => by cases h) _

/-! ### Examples -/

/-- The requests among these events, for a test on a computer. -/
def Demo.onComputer (es : List (Env × Event)) : List (Env × Bytes × Nat) :=
  es.filterMap fun e => match e.2 with | .apdu buf rx => some (e.1, buf, rx) | _ => none

set_option maxRecDepth 100000 in
/-- **C104** without its hypothesis on reviews: a test on a computer that asks for a signature of a transfer of `2 ^ 28`
millionths of a tez gets one. A device with the larger display never answers the same requests, whatever buttons are
pressed. -/
theorem C104_unreadable : ∃ o : Operation, o.Valid ∧ Demo.largeTransfer = 0x03 :: (Demo.branch ++ o.encode) ∧
    ((Demo.freshLarge.hostRun Demo.walletApp (Demo.onComputer Demo.largeTransferRequest)).2.map
      fun x => (x.reply.map List.length, x.sig.map SigRec.msg)) = [(some 2, none), (some 66, some Demo.largeTransfer)] ∧
    ∀ bs : List (Env × Event), (∀ e ∈ bs, e.2.Pressed ∧ e.1.cr = Demo.crypto) →
      (Demo.freshLarge.run Demo.walletApp (Demo.largeTransferRequest ++ bs)).2.filterMap Output.sig = [] ∧
      (Demo.freshLarge.run Demo.walletApp (Demo.largeTransferRequest ++ bs)).2.filterMap Output.reply =
        [[0x90, 0x00]] := by
  obtain ⟨o, h1, h2, -, -, h3⟩ := C79_transfer_stuck
  refine ⟨o, h1, h2, by decide +kernel, fun bs hb => ?_⟩
  have hq : ∀ {α : Type} (f : Output → Option α), f .quiet = none →
      (bs.map fun _ => Output.quiet).filterMap f = [] := by
    intro α f hf
    simp [hf]
  rw [Dev.run_append_out, h3 bs hb, List.filterMap_append, List.filterMap_append, hq _ rfl, hq _ rfl]
  decide +kernel

namespace Demo

/-- A key, then a delegation to sign. -/
def delegationTest : List (Env × Bytes × Nat) := onComputer (ok [apdu 0x04 0 0 keyPath, apdu 0x04 0x81 0 delegation])

/-- The message that a packet completes. -/
def completed (acc : Accessor) (s : Dev) (ev : Event) : Option Bytes :=
  match ev with
  | .apdu buf _ =>
    match (s.upl.upload fine.copyF fine.appendF acc (buf.getD 2 0) (buf.getD 3 0) (apduPayload buf)).2 with
    | .complete _ _ d _ => some d
    | _ => none
  | _ => none

theorem completed_of {acc : Accessor} {s : Dev} {buf : Bytes} {rx : Nat} {u : Upl} {q2 : UInt8} {first data : Bytes}
    {ref : MemRef} (h : Completes fine s acc (buf.getD 2 0) (buf.getD 3 0) (apduPayload buf) u q2 first data ref) :
    completed acc s (.apdu buf rx) = some data := by
  simp only [completed, h.eq]

theorem delegation_batch : ReadableBatch delegation :=
  ⟨List.replicate 32 5, [delegationOp], [], delegation_encode.symm, by simp,
    fun o ho => by rw [List.mem_singleton.mp ho]; exact delegationOp_valid, nofun, by decide,
    delegation_readable⟩

set_option maxRecDepth 100000 in
/-- The hypotheses of `C104_session`, for a test that signs a delegation, and what the test sees. -/
theorem delegation_test : fresh.running = true ∧ fresh.PresentableAll walletApp delegationTest ∧
    (∀ o ∈ (fresh.hostRun walletApp delegationTest).2, o.fault = none) ∧
    (fresh.hostRun walletApp delegationTest).2.map (fun o => (o.reply.map List.length, o.sig.map SigRec.msg)) =
      [(some 2, none), (some 66, some delegation)] := by
  refine ⟨rfl, ?_, by decide +kernel, by decide +kernel⟩
  have hc : ∀ {s : Dev} {buf : Bytes} {rx : Nat}, completed .baking s (.apdu buf rx) = none →
      (completed .sign s (.apdu buf rx) = none ∨ completed .sign s (.apdu buf rx) = some delegation) →
      s.Presentable walletApp fine buf rx := by
    intro s buf rx h1 h2
    refine C104_presentable walletApp fine crypto_works buf rx s ?_ ?_
    · intro u q2 first rem ref h
      have := completed_of (rx := rx) h
      rcases h2 with h2 | h2
      · rw [this] at h2; cases h2
      · rw [this] at h2
        rw [Option.some.inj h2]
        exact delegation_batch
    · intro u q2 first rem ref h
      have := completed_of (rx := rx) h
      rw [this] at h1; cases h1
  exact ⟨crypto_sized, hc (by decide +kernel) (by decide +kernel), crypto_sized,
    hc (by decide +kernel) (by decide +kernel), trivial⟩

/-- What follows for the device. -/
example : ∃ es os, PlayedAll walletApp fresh freshLarge delegationTest es os ∧
    (freshLarge.run walletApp es).2 = os ∧
    os.filterMap Output.sig = (fresh.hostRun walletApp delegationTest).2.filterMap Output.sig := by
  obtain ⟨h1, h2, h3, -⟩ := delegation_test
  obtain ⟨es, os, a, b, -, -, c, -⟩ := C104_session walletApp fresh freshLarge h1 rfl delegationTest h2 h3
  exact ⟨es, os, a, b, c⟩

set_option maxRecDepth 100000 in
/-- The same by evaluation, with the two-line display: the device is shown eleven more pages before the approval. -/
example :
    (fresh.run walletApp (signReview 0x04 delegation 11)).2.filterMap Output.reply =
      (fresh.hostRun walletApp delegationTest).2.filterMap Output.reply ∧
    (fresh.run walletApp (signReview 0x04 delegation 11)).2.filterMap Output.sig =
      (fresh.hostRun walletApp delegationTest).2.filterMap Output.sig := by
  decide +kernel

end Demo

end Tezos
