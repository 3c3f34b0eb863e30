import Verif.Props.Approvals

/-!
# What is signed at all

C61: the private keys are used for nothing but the signatures handed out and the one constant of the HMAC command. The
statement replaces the signing function: with one that knows only these signatures, the app does the same. So nothing
else it does, and no byte it sends, can depend on any other signature.
-/

namespace Tezos

/-- `f` gives the signature in this result. -/
def Knows (f : Curve → Path → Bytes → Option Bytes) (o : Option SigRec) : Prop :=
  ∀ x, o = some x → f x.curve x.path x.digest = some x.sig

/-- `f` gives what the HMAC command signs, and fails where the real function fails. -/
structure Stands (env : Env) (f : Curve → Path → Bytes → Option Bytes) : Prop where
  fails : ∀ c p d, env.cr.sign c p d = none → f c p d = none
  hmac : ∀ c p, f c p hmacKeySha256 = env.cr.sign c p hmacKeySha256

section
variable (env : Env) (f : Curve → Path → Bytes → Option Bytes)

theorem opItem_withSign (op : Op) (n : Nat) : op.item (env.withSign f).cr n = op.item env.cr n := by
  cases op with
  | delegation d =>
    simp only [Op.item, Delegation.item]
    have h : ∀ p, pkhText (env.withSign f).cr p = pkhText env.cr p := fun _ => rfl
    simp only [h]
  | _ => rfl

theorem viewer_withSign (v : View) (mem : SwapBuf) : v.viewer (env.withSign f).cr mem = v.viewer env.cr mem := by
  have hb : ∀ b, branchText (env.withSign f).cr b = branchText env.cr b := fun _ => rfl
  cases v with
  | sign a b c d =>
    cases c with
    | none => rfl
    | some r =>
      have : ∀ x y, signOpItem (env.withSign f).cr x y = signOpItem env.cr x y := by
        intro x y
        funext n
        simp only [signOpItem, hb, opItem_withSign]
      simp only [View.viewer, this]
  | bakingSign a b c d => simp only [View.viewer, hb, opItem_withSign]
  | _ => rfl

theorem show_withSign (v : View) (s : Dev) : s.show (env.withSign f) v = s.show env v := by
  simp only [Dev.show, viewer_withSign]

theorem devViewer_withSign (s : Dev) : s.viewer (env.withSign f) = s.viewer env := by
  unfold Dev.viewer
  have : View.viewer (env.withSign f).cr s.upl.buf = View.viewer env.cr s.upl.buf :=
    funext fun v => viewer_withSign env f v _
  rw [this]

variable {env f}

theorem bakingSign_withSign (st : Stands env f) (h : Bool) (d m : Bytes) (s : Dev)
    (hk : Knows f (s.bakingSign env h d m).deliver.2.sig) :
    s.bakingSign (env.withSign f) h d m = s.bakingSign env h d m := by
  unfold Dev.bakingSign Dev.withKey Dev.withRead at hk ⊢
  cases h0 : s.key.read with
  | err _ => rfl
  | panic => rfl
  | ok b =>
    rw [h0] at hk
    simp only at hk ⊢
    cases hb : PathAndCurve.tryFromBytes b with
    | error _ => rfl
    | ok o =>
      cases o with
      | none => rfl
      | some k =>
        rw [hb] at hk
        simp only at hk ⊢
        cases hs : env.cr.sign k.curve k.path d with
        | none =>
          have : (env.withSign f).cr.sign k.curve k.path d = none := st.fails _ _ _ hs
          rw [this]
        | some sig =>
          rw [hs] at hk
          have : (env.withSign f).cr.sign k.curve k.path d = some sig := hk _ rfl
          rw [this]

theorem accept_withSign (st : Stands env f) (v : View) (s : Dev) (hk : Knows f (v.accept env s).deliver.2.sig) :
    v.accept (env.withSign f) s = v.accept env s := by
  cases v with
  | sign h d r m =>
    simp only [View.accept] at hk ⊢
    cases hp : s.path with
    | none => rfl
    | some q =>
      obtain ⟨path, curve⟩ := q
      rw [hp] at hk
      simp only at hk ⊢
      cases hs : env.cr.sign curve path d with
      | none =>
        have : (env.withSign f).cr.sign curve path d = none := st.fails _ _ _ hs
        rw [this]
      | some sig =>
        rw [hs] at hk
        have : (env.withSign f).cr.sign curve path d = some sig := hk _ rfl
        rw [this]
  | bakingSign h d b o m => exact bakingSign_withSign st h d m s hk
  | _ => rfl

theorem autoSign_withSign (st : Stands env f) (h : Bool) (d m : Bytes) (dec : WaterMark → Except HErr WaterMark)
    (s : Dev) (hk : Knows f (s.autoSign env h d m dec).deliver.2.sig) :
    s.autoSign (env.withSign f) h d m dec = s.autoSign env h d m dec := by
  unfold Dev.autoSign Dev.withRead at hk ⊢
  cases h0 : s.main.read with
  | err _ => rfl
  | panic => rfl
  | ok b =>
    rw [h0] at hk
    simp only at hk ⊢
    cases hd : dec (WaterMark.decode b) with
    | error e => cases e <;> rfl
    | ok w =>
      rw [hd] at hk
      simp only at hk ⊢
      have hw : s.writeMain (env.withSign f) w = s.writeMain env w := rfl
      rw [hw]
      unfold Dev.afterWrite at hk ⊢
      cases hr : (s.writeMain env w).2 with
      | ok =>
        rw [hr] at hk
        exact bakingSign_withSign st h d m _ hk
      | _ => rfl

theorem handleDelegation_withSign (h : Bool) (d r m : Bytes) (ref : MemRef) (s : Dev) :
    s.handleDelegation (env.withSign f) h d r m ref = s.handleDelegation env h d r m ref := by
  simp only [Dev.handleDelegation, show_withSign]

theorem startSign_withSign (h : Bool) (p2 : UInt8) (first data : Bytes) (ref : MemRef) (s : Dev) :
    s.startSign (env.withSign f) h p2 first data ref = s.startSign env h p2 first data ref := by
  simp only [Dev.startSign, show_withSign]
  rfl

theorem bakerSign_withSign (st : Stands env f) (h : Bool) (p2 : UInt8) (first data : Bytes) (ref : MemRef) (s : Dev)
    (hk : Knows f (s.bakerSign env h p2 first data ref).deliver.2.sig) :
    s.bakerSign (env.withSign f) h p2 first data ref = s.bakerSign env h p2 first data ref := by
  unfold Dev.bakerSign Dev.withPath at hk ⊢
  cases h0 : Curve.ofByte p2 with
  | none => rfl
  | some curve =>
    rw [h0] at hk
    simp only at hk ⊢
    cases hp : Path.read bip32MaxLength first with
    | error _ => rfl
    | ok path =>
      rw [hp] at hk
      unfold Dev.withKey Dev.withRead at hk ⊢
      cases h0 : s.key.read with
      | err _ => rfl
      | panic => rfl
      | ok b =>
        rw [h0] at hk
        simp only at hk ⊢
        cases hb : PathAndCurve.tryFromBytes b with
        | error _ => rfl
        | ok o =>
          cases o with
          | none => rfl
          | some k =>
            rw [hb] at hk
            simp only at hk ⊢
            by_cases hne : k ≠ ⟨curve, path⟩
            · rw [if_pos hne, if_pos hne]
            rw [if_neg hne] at hk
            rw [if_neg hne, if_neg hne]
            have hbl : (env.withSign f).cr.blake2b 32 data = env.cr.blake2b 32 data := rfl
            rw [hbl]
            cases hdg : env.cr.blake2b 32 data with
            | none => rfl
            | some digest =>
              rw [hdg] at hk
              simp only at hk ⊢
              cases hpr : Preamble.parse data with
              | error e => cases e <;> rfl
              | ok q =>
                obtain ⟨rem, p⟩ := q
                rw [hpr] at hk
                simp only at hk ⊢
                cases p with
                | operation => exact handleDelegation_withSign ..
                | tenderbakePreendorsement => exact autoSign_withSign st _ _ _ _ _ hk
                | tenderbakeEndorsement => exact autoSign_withSign st _ _ _ _ _ hk
                | endorsement => exact autoSign_withSign st _ _ _ _ _ hk
                | tenderbakeBlock => exact autoSign_withSign st _ _ _ _ _ hk
                | block => exact autoSign_withSign st _ _ _ _ _ hk
                | _ => rfl

theorem deliver_sig_upl (r : Res) (u : Upl) : ({ r with st := { r.st with upl := u } } : Res).deliver.2.sig =
    r.deliver.2.sig := by
  unfold Res.deliver
  cases r.out <;> rfl

theorem exec_withSign (cfg : Config) (st : Stands env f) (c : Cmd) (p1 p2 : UInt8) (pl : Option Bytes) (s : Dev)
    (hk : Knows f (s.exec cfg env c p1 p2 pl).deliver.2.sig) :
    s.exec cfg (env.withSign f) c p1 p2 pl = s.exec cfg env c p1 p2 pl := by
  cases c with
  | hmac => simp only [Dev.exec, Dev.cmdHmac, Env.withSign, st.hmac]
  | queryAuth wc =>
    simp only [Dev.exec, Dev.cmdQueryAuth, newAddr_withSign, show_withSign]
    rfl
  | authorize => simp only [Dev.exec, Dev.cmdAuthorize, newAddr_withSign, show_withSign]
  | deauthorize => simp only [Dev.exec, Dev.cmdDeauthorize, newAddr_withSign, show_withSign]
  | setup => simp only [Dev.exec, Dev.cmdSetup, newAddr_withSign, show_withSign]
  | promptAddr =>
    simp only [Dev.exec, Dev.cmdAddr, ofKey_withSign, show_withSign]
    rfl
  | getAddr =>
    simp only [Dev.exec, Dev.cmdAddr, ofKey_withSign, show_withSign]
    rfl
  | sign h =>
    simp only [Dev.exec, Dev.cmdUpload, startSign_withSign]
    rfl
  | bakerSign h =>
    simp only [Dev.exec, Dev.cmdUpload] at hk ⊢
    have hu : s.upl.upload (env.withSign f).copyF (env.withSign f).appendF .baking p1 p2 pl =
        s.upl.upload env.copyF env.appendF .baking p1 p2 pl := rfl
    rw [hu]
    cases hr : (s.upl.upload env.copyF env.appendF .baking p1 p2 pl).2 with
    | complete q2 first data ref =>
      rw [hr] at hk
      simp only at hk ⊢
      rw [bakerSign_withSign st _ _ _ _ _ _ (by rwa [deliver_sig_upl] at hk)]
    | _ => rfl
  | _ => rfl

theorem dispatch_withSign (cfg : Config) (st : Stands env f) (buf : Bytes) (rx : Nat) (s : Dev)
    (hk : Knows f (s.dispatch cfg env buf rx).deliver.2.sig) :
    s.dispatch cfg (env.withSign f) buf rx = s.dispatch cfg env buf rx := by
  unfold Dev.dispatch at hk ⊢
  split
  · rfl
  next h1 =>
    rw [if_neg h1] at hk
    split
    · rfl
    next h2 =>
      rw [if_neg h2] at hk
      cases hc : command cfg.build (buf.getD 1 0) with
      | none => rfl
      | some c =>
        rw [hc] at hk
        exact exec_withSign cfg st c _ _ _ s hk

theorem approve_withSign (st : Stands env f) (s : Dev) (hk : Knows f (s.approve env).2.sig) :
    s.approve (env.withSign f) = s.approve env := by
  unfold Dev.approve at hk ⊢
  simp only at hk ⊢
  cases hv : s.view with
  | none => rfl
  | some v =>
    rw [hv] at hk
    simp only at hk ⊢
    rw [accept_withSign st v _ hk]

theorem pressBoth_withSign (st : Stands env f) (s : Dev) (hk : Knows f (s.pressBoth env).2.sig) :
    s.pressBoth (env.withSign f) = s.pressBoth env := by
  unfold Dev.pressBoth at hk ⊢
  simp only [devViewer_withSign]
  cases ha : s.zui.chosen with
  | approve =>
    rw [ha] at hk
    have : Knows f (s.approve env).2.sig := by
      simp only at hk
      split at hk <;> exact hk
    simp only
    rw [approve_withSign st s this]
  | _ => rfl

end

/-- C61: one event. With any signing function in the place of the real one that knows the signature handed out at this
event and the one of the HMAC constant, and fails where the real one fails, the app does and answers exactly the same.
So nothing else is ever signed, and nothing depends on any other signature. -/
theorem C61_event (cfg : Config) (env : Env) (s : Dev) (ev : Event) (f : Curve → Path → Bytes → Option Bytes)
    (st : Stands env f) (hk : ∀ x, (s.step cfg env ev).2.sig = some x → f x.curve x.path x.digest = some x.sig) :
    s.step cfg (env.withSign f) ev = s.step cfg env ev := by
  cases ev with
  | relaunch => rfl
  | expert => rfl
  | left => simp only [Dev.step, devViewer_withSign]
  | right => simp only [Dev.step, devViewer_withSign]
  | apdu buf rx =>
    simp only [Dev.step] at hk ⊢
    split
    next h =>
      rw [if_pos h] at hk
      rw [dispatch_withSign cfg st buf rx s hk]
    · rfl
  | both =>
    simp only [Dev.step] at hk ⊢
    split
    next h =>
      rw [if_pos h] at hk
      cases hz : s.zui.screen with
      | review a b =>
        rw [hz] at hk
        exact pressBoth_withSign st s hk
      | _ => rfl
    · rfl

/-- C61: whole histories. -/
theorem C61_history (cfg : Config) (s : Dev) (es : List (Env × Event)) (f : Curve → Path → Bytes → Option Bytes)
    (st : ∀ e ∈ es, Stands e.1 f)
    (hk : ∀ o ∈ (s.run cfg es).2, ∀ x, o.sig = some x → f x.curve x.path x.digest = some x.sig) :
    s.run cfg (es.map fun e => (e.1.withSign f, e.2)) = s.run cfg es := by
  induction es generalizing s with
  | nil => rfl
  | cons e es ih =>
    obtain ⟨env, ev⟩ := e
    have h1 := C61_event cfg env s ev f (st _ (List.mem_cons_self ..)) (hk _ (List.mem_cons_self ..))
    have h2 := ih (s.step cfg env ev).1 (fun e he => st e (List.mem_cons_of_mem _ he))
      fun o ho => hk o (List.mem_cons_of_mem _ ho)
    simp only [List.map_cons, Dev.run, h1, h2]

namespace Demo

/-- A signing function that knows one digest and the HMAC constant. -/
def knowing (d : Bytes) (c : Curve) (p : Path) (d' : Bytes) : Option Bytes :=
  if d' = d ∨ d' = hmacKeySha256 then crypto.sign c p d' else none

/-- A block is signed, another one below the watermark is refused, an operation is rejected by the user, an HMAC is
given. -/
def secretive : List (Env × Event) :=
  setup 3 ++ sign (emmyBlock 5) ++ sign (emmyBlock 4) ++ signReview 0x04 delegation 12 ++
    ok [apdu 0x0E 0 0 (keyPath ++ [1, 2, 3])]

set_option maxRecDepth 100000 in
/-- The hypotheses of the theorems above. The signing function that knows only the signature of the one block is
another one than that of the device. -/
example :
    (∀ e ∈ secretive, Stands e.1 (knowing (hash 32 (emmyBlock 5)))) ∧
    (∀ o ∈ (fresh.run bakingApp secretive).2, ∀ x, o.sig = some x →
      knowing (hash 32 (emmyBlock 5)) x.curve x.path x.digest = some x.sig) ∧
    ((fresh.run bakingApp secretive).2.filterMap fun o => o.sig.map SigRec.msg) = [emmyBlock 5] ∧
    ((fresh.run bakingApp secretive).2.filterMap fun o => o.reply.map List.length).getLast? = some 34 ∧
    knowing (hash 32 (emmyBlock 5)) .ed25519 [] (hash 32 (emmyBlock 4)) = none := by
  refine ⟨?_, ?_, by decide +kernel, by decide +kernel, by decide +kernel⟩
  · have h : ∀ e ∈ secretive, e.1 = fine := by
      simp [secretive, setup, sign, signReview, ok]
    intro e he
    rw [h e he]
    exact ⟨fun c p d h => (nomatch h), fun c p => by simp [knowing, fine]⟩
  · have h : ((fresh.run bakingApp secretive).2.all fun o => o.sig.all fun x =>
        knowing (hash 32 (emmyBlock 5)) x.curve x.path x.digest = some x.sig) = true := by decide +kernel
    intro o ho x hx
    have h1 := List.all_eq_true.1 h o ho
    rw [hx] at h1
    exact of_decide_eq_true h1

end Demo

end Tezos
