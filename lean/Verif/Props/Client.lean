import Verif.Talk
import Verif.Spec.Client
/-
Properties of the client library in conversation with the device: C62.
-/
set_option linter.unusedSimpArgs false
namespace Tezos
open Spec

/-! ### Paths -/

/-- What is assumed of `Number`: it reads decimal numbers. -/
def Js.ReadsDecimal (js : Js) : Prop := ∀ t n, IsDigits t n → js.number t = some (n : Int)

theorem splitOn_plain {sep : UInt8} {t : Bytes} (h : sep ∉ t) : splitOn sep t = [t] := by
  induction t with
  | nil => rfl
  | cons c t ih =>
    simp only [List.mem_cons, not_or] at h
    rw [splitOn, if_neg (fun e => h.1 e.symm), ih h.2]

theorem splitOn_cons {sep : UInt8} {t r : Bytes} (h : sep ∉ t) : splitOn sep (t ++ sep :: r) = t :: splitOn sep r := by
  induction t with
  | nil => simp [splitOn]
  | cons c t ih =>
    simp only [List.mem_cons, not_or] at h
    rw [List.cons_append, splitOn, if_neg (fun e => h.1 e.symm), ih h.2]

theorem splitOn_join {sep : UInt8} {t : Bytes} {ts : List Bytes} (h : sep ∉ t) (hs : ∀ x ∈ ts, sep ∉ x) :
    splitOn sep (t ++ ts.flatMap fun x => sep :: x) = t :: ts := by
  induction ts generalizing t with
  | nil => simpa using splitOn_plain h
  | cons x ts ih =>
    rw [List.flatMap_cons, List.cons_append, splitOn_cons h, ih (hs x (by simp)) fun y hy => hs y (by simp [hy])]

theorem isDigit_ne {c d : UInt8} (h : isDigit c) (hd : d.toNat < 48 ∨ 57 < d.toNat) : d ≠ c := by
  rintro rfl
  have := h.1
  have := h.2
  omega

theorem componentText_no_slash {t : Bytes} {c : Component} (h : IsComponentText t c) : (0x2f : UInt8) ∉ t := by
  obtain ⟨d, hd, rfl⟩ := h
  intro hm
  rcases List.mem_append.mp hm with hm | hm
  · exact isDigit_ne (hd.digits _ hm) (.inl (by decide)) rfl
  · split at hm
    · simp only [List.mem_singleton] at hm
      exact absurd hm (by decide)
    · cases hm

theorem childNumber_text {js : Js} (hjs : js.ReadsDecimal) {t : Bytes} {c : Component} (h : IsComponentText t c) :
    childNumber js t = if c.index < 2 ^ 31 then some c.bits else none := by
  obtain ⟨d, hd, rfl⟩ := h
  have hq : d.getLast? ≠ some 0x27 := by
    intro e
    exact isDigit_ne (hd.digits _ (List.mem_of_getLast? e)) (.inl (by decide)) rfl
  have hn := hjs d c.index hd
  unfold childNumber Component.bits
  cases c.hardened with
  | true =>
    simp only [if_true, List.getLast?_append, List.getLast?_singleton, Option.some_or, List.dropLast_concat, hn]
    by_cases hi : c.index < 2 ^ 31
    · rw [if_neg (by omega), if_pos (by omega), if_pos hi]
      congr 2
      omega
    · rw [if_pos (by omega), if_neg hi]
  | false =>
    simp only [Bool.false_eq_true, if_false, List.append_nil, hq, hn]
    by_cases hi : c.index < 2 ^ 31
    · rw [if_neg (by omega), if_pos (by omega), if_pos hi]
      rfl
    · rw [if_pos (by omega), if_neg hi]

theorem mapM_children {js : Js} (hjs : js.ReadsDecimal) {ps : List (Bytes × Component)}
    (h : ∀ p ∈ ps, IsComponentText p.1 p.2) :
    (ps.map (·.1)).mapM (childNumber js) =
      if ∀ c ∈ ps.map (·.2), c.index < 2 ^ 31 then some ((ps.map (·.2)).map Component.bits) else none := by
  induction ps with
  | nil => simp
  | cons p ps ih =>
    rw [List.map_cons, List.mapM_cons, childNumber_text hjs (h p (by simp)), ih fun q hq => h q (by simp [hq])]
    by_cases h1 : p.2.index < 2 ^ 31
    · by_cases h2 : ∀ x ∈ ps.map (·.2), x.index < 2 ^ 31
      · rw [if_pos h1, if_pos h2, if_pos]
        · rfl
        · intro c hc
          rcases List.mem_cons.mp hc with rfl | hc
          · exact h1
          · exact h2 c hc
      · rw [if_pos h1, if_neg h2, if_neg]
        · rfl
        · exact fun h => h2 fun x hx => h x (List.mem_cons_of_mem _ hx)
    · rw [if_neg h1]
      exact (if_neg fun h => h1 (h p.2 (List.mem_cons_self ..))).symm

/-- C63: a derivation path written as text is sent as the path it denotes if it has two or four components with indices
below 2^31, in the form the device reads; any other path written this way is refused. -/
theorem C63_path_text (js : Js) (hjs : js.ReadsDecimal) (t : Bytes) (cs : List Component) (h : IsPathText t cs) :
    serializePath js t = (if (cs.length = 2 ∨ cs.length = 4) ∧ ∀ c ∈ cs, c.index < 2 ^ 31 then
      some (UInt8.ofNat cs.length :: (cs.map Component.bits).flatMap be32) else none) := by
  obtain ⟨ps, hps, rfl, rfl⟩ := h
  have hsplit : splitOn 0x2f (0x6d :: ps.flatMap fun p => 0x2f :: p.1) = [0x6d] :: ps.map (·.1) := by
    have := splitOn_join (sep := 0x2f) (t := [0x6d]) (ts := ps.map (·.1)) (by decide) fun x hx => by
      obtain ⟨p, hp, rfl⟩ := List.mem_map.mp hx
      exact componentText_no_slash (hps p hp)
    rw [← this, List.flatMap_map]
    rfl
  unfold serializePath
  rw [if_neg (by simp)]
  simp only [hsplit, List.length_cons, List.drop_succ_cons, List.drop_zero, mapM_children hjs hps, List.length_map]
  generalize hcs : ps.map (·.2) = cs
  have hlen : ps.length = cs.length := by rw [← hcs, List.length_map]
  rw [hlen]
  by_cases h1 : cs.length = 2 ∨ cs.length = 4
  · rw [if_neg (by omega)]
    by_cases h2 : ∀ c ∈ cs, c.index < 2 ^ 31
    · rw [if_pos h2, if_pos ⟨h1, h2⟩]
      rfl
    · rw [if_neg h2, if_neg (fun h => h2 h.2)]
      rfl
  · rw [if_pos (by omega), if_neg (fun h => h1 h.1)]

/-! ### Chunks -/

theorem slices_flatten (n : Nat) (m : Bytes) (k : Nat) :
    ((List.range k).map fun i => slice m (n * i) n).flatten = m.take (n * k) := by
  induction k with
  | zero => simp
  | succ k ih =>
    rw [List.range_succ, List.map_append, List.flatten_append, ih]
    simp only [List.map_cons, List.map_nil, List.flatten_cons, List.flatten_nil, List.append_nil]
    rw [Nat.mul_succ, List.take_add]
    rfl

/-- The chunks are the path and the message cut into pieces. -/
theorem prepareChunks_eq (message path : Bytes) (hm : message ≠ []) :
    ∃ cs, prepareChunks message path = path :: cs ∧ cs ≠ [] ∧ cs.flatten = message := by
  have hl : 0 < message.length := List.length_pos_iff.mpr hm
  refine ⟨_, rfl, ?_, ?_⟩
  · simp only [ne_eq, List.map_eq_nil_iff, List.range_eq_nil]
    unfold chunkSize
    omega
  · rw [slices_flatten]
    apply List.take_of_length_le
    unfold chunkSize
    omega

theorem mapM_some_length {α β : Type} {f : α → Option β} {l : List α} {r : List β} (h : l.mapM f = some r) :
    r.length = l.length := by
  induction l generalizing r with
  | nil => cases h; rfl
  | cons a l ih =>
    rw [List.mapM_cons] at h
    obtain ⟨b, _, h⟩ := Option.bind_eq_some_iff.mp h
    obtain ⟨bs, hb, h⟩ := Option.bind_eq_some_iff.mp h
    cases h
    simp [ih hb]

/-- The client serializes paths of two and of four components. -/
theorem serializePath_some {js : Js} {path p : Bytes} (h : serializePath js path = some p) :
    ∃ cs : List UInt32, (cs.length = 2 ∨ cs.length = 4) ∧ p = UInt8.ofNat cs.length :: cs.flatMap be32 := by
  unfold serializePath at h
  simp only [ne_eq] at h
  split at h
  · cases h
  · split at h
    · cases h
    · rename_i hl
      obtain ⟨cs, hcs, h⟩ := Option.bind_eq_some_iff.mp h
      cases h
      have := mapM_some_length hcs
      rw [List.length_drop] at this
      exact ⟨cs, by omega, by rw [this]⟩

/-! ### Signatures in a conversation -/

/-- The signatures handed out. -/
def sigsOf (t : List Moment) : List SigRec := t.filterMap fun m => m.out.sig

theorem sigsOf_append (a b : List Moment) : sigsOf (a ++ b) = sigsOf a ++ sigsOf b := List.filterMap_append

theorem sigsOf_nil {t : List Moment} (h : ∀ m ∈ t, m.out.sig = none) : sigsOf t = [] :=
  List.filterMap_eq_nil_iff.mpr h

/-- Signatures are handed out with success. -/
theorem unsuccessful_unsigned {cfg : Config} {new : NewDevice} {es : List (Env × Event)} {m : Moment}
    (hm : m ∈ (Dev.factory new).trace cfg es) (h : ∀ r, m.out.reply = some r → statusOf r ≠ 0x9000) :
    m.out.sig = none := by
  obtain ⟨a, b, hab⟩ := List.append_of_mem hm
  cases hs : m.out.sig with
  | none => rfl
  | some z =>
    obtain ⟨_, _, _, _, _, _, _, _, hr, _⟩ := C45_reply_layout cfg new es a b m hab z hs
    exact absurd (statusOf_append _ 0x90 0x00) (h _ hr)

theorem quiet_unsigned {cfg : Config} {new : NewDevice} {es : List (Env × Event)} {q : List Moment}
    (hm : ∀ m ∈ q, m ∈ (Dev.factory new).trace cfg es) (hq : ∀ m ∈ q, m.Quiet) : sigsOf q = [] :=
  sigsOf_nil fun m h => unsuccessful_unsigned (hm m h) fun r hr => by rw [(hq m h).reply] at hr; cases hr

theorem Exchange.unsigned {cfg : Config} {new : NewDevice} {es : List (Env × Event)} {seg : List Moment}
    {ins p1 p2 : UInt8} {data a : Bytes} (he : Exchange ins p1 p2 data a seg)
    (hm : ∀ m ∈ seg, m ∈ (Dev.factory new).trace cfg es) (hs : statusOf a ≠ 0x9000) : sigsOf seg = [] := by
  refine sigsOf_nil fun m h => unsuccessful_unsigned (hm m h) fun r hr => ?_
  cases he with
  | atOnce hc hr' =>
    simp only [List.mem_singleton] at h
    subst h
    rw [hr'] at hr
    cases hr
    exact hs
  | later hc hn hq hl hr' =>
    rcases List.mem_cons.mp h with rfl | h
    · rw [hn] at hr; cases hr
    · rcases List.mem_append.mp h with h | h
      · rw [(hq m h).reply] at hr; cases hr
      · simp only [List.mem_singleton] at h
        subst h
        rw [hr'] at hr
        cases hr
        exact hs

/-- Buttons leave the upload alone, or end it. -/
theorem sessionIn_quiet {cfg : Config} {past q : List Moment} (hq : ∀ m ∈ q, m.Quiet) :
    sessionIn cfg (past ++ q) = sessionIn cfg past ∨ sessionIn cfg (past ++ q) = none := by
  rw [sessionIn_append]
  generalize sessionIn cfg past = s
  induction q generalizing s with
  | nil => exact .inl rfl
  | cons m q ih =>
    have hm := (hq m (by simp)).button
    have : sessionStep cfg s m = s ∨ sessionStep cfg s m = none := by
      unfold sessionStep
      rw [Event.packet_button hm]
      split
      · exact .inr rfl
      · split <;> exact .inl rfl
    simp only [List.foldl_cons]
    rcases ih (fun m h => hq m (by simp [h])) (sessionStep cfg s m) with h | h
    · rw [h]; exact this
    · exact .inr h

/-- A signature that answers a request of the client. -/
structure Answers (c : SignCall) (t : List Moment) (q2 : UInt8) (first msg : Bytes) (body : Option (Bytes × Bytes))
    (x : SigRec) : Prop where
  sigs : sigsOf t = [x]
  msg : x.msg = msg
  curve : Curve.ofByte q2 = some x.curve
  path : first = UInt8.ofNat x.path.length :: x.path.flatMap be32
  digest : ∃ m ∈ t, m.env.cr.blake2b 32 x.msg = some x.digest
  signed : ∃ m ∈ t, m.env.cr.sign x.curve x.path x.digest = some x.sig
  body : body = c.readAnswer ((if c.ins ∈ hashInstructions then x.digest else []) ++ x.sig ++ [0x90, 0x00])

/-- One chunk after the first. -/
inductive ChunkRes (cfg : Config) (c : SignCall) (past t : List Moment) (f : Accessor) (q2 : UInt8)
    (first sofar chunk : Bytes) (lastChunk : Bool) (r : SignResponse) : Prop where
  | failed (hr : r.returnCode ≠ 0x9000) (hs : sigsOf t = [])
  | acked (hr : r.returnCode = 0x9000) (hs : sigsOf t = []) (hl : lastChunk = false)
      (hn : sessionIn cfg (past ++ t) = none ∨ sessionIn cfg (past ++ t) = some ⟨f, q2, first, sofar ++ chunk⟩)
  | signed (hr : r.returnCode = 0x9000) (hl : lastChunk = true) (x : SigRec)
      (hx : Answers c t q2 first (sofar ++ chunk) r.body x)

theorem SignCall.p1_role (c : SignCall) {idx num : Nat} (hi : 1 < idx) :
    role (c.p1 idx num) = some (if idx = num then .closing else .middle) := by
  unfold SignCall.p1
  simp only [show ¬ idx = 1 by omega, if_false]
  by_cases h : idx = num
  · simp only [h, if_true]
    cases c.legacy <;> decide
  · simp only [h, if_false]
    decide

theorem SignCall.sendChunk_res {cfg : Config} {new : NewDevice} {es : List (Env × Event)} {past t rest : List Moment}
    {c : SignCall} {f : Accessor} {idx num : Nat} {q2 : UInt8} {first sofar chunk : Bytes} {r : SignResponse}
    (hu : new.upload.length = uploadCapacity) (hg : ∀ e ∈ es, Good e.1 e.2)
    (h : (Dev.factory new).trace cfg es = past ++ (t ++ rest)) (hf : familyOf cfg.build c.ins = some f)
    (hsess : sessionIn cfg past = none ∨ sessionIn cfg past = some ⟨f, q2, first, sofar⟩) (hi : 1 < idx)
    (ht : Talk (c.sendChunk idx num chunk) t r) :
    ChunkRes cfg c past t f q2 first sofar chunk (decide (idx = num)) r := by
  have hmem : ∀ m ∈ t, m ∈ (Dev.factory new).trace cfg es := fun m hm => by rw [h]; simp [hm]
  unfold SignCall.sendChunk at ht
  rw [if_neg (show ¬ idx = 1 by omega)] at ht
  rcases ht.of_process with ⟨⟨_, hq⟩, rfl⟩ | ⟨q, s, q', a, rfl, hq, hq', he, hr⟩
  · exact .failed (by decide) (quiet_unsigned hmem hq)
  · have s1 : sigsOf q = [] := quiet_unsigned (fun m hm => hmem m (by simp [hm])) hq
    have s2 : sigsOf q' = [] := quiet_unsigned (fun m hm => hmem m (by simp [hm])) hq'
    by_cases hs : statusOf a = 0x9000
    · have hmid : sessionIn cfg (past ++ q) = none ∨ sessionIn cfg (past ++ q) = some ⟨f, q2, first, sofar⟩ := by
        rcases sessionIn_quiet (cfg := cfg) (past := past) hq with e | e
        · rw [e]; exact hsess
        · exact .inl e
      have h' : (Dev.factory new).trace cfg es = (past ++ q) ++ (s ++ (q' ++ rest)) := by rw [h]; simp
      have hrole := c.p1_role (num := num) hi
      rcases Exchange.success hu hg h' he hf hs with
        ⟨m, rfl, rfl, hsig, hack, hnext⟩ | ⟨i, l, x, p2, fst, rm, rfl, hi', hl, hrm, ha, hd, hsg, hfeed, hcv, hfirst⟩
      · have hrr : r.returnCode = 0x9000 := by
          rw [hr]
          rfl
        have hlast : ¬ idx = num := by
          intro e
          rw [if_pos e] at hrole
          unfold acks at hack
          simp only [hrole] at hack
          cases hack
        rw [if_neg hlast] at hrole
        refine .acked hrr ?_ (by simpa using hlast) ?_
        · rw [sigsOf_append, sigsOf_append, s1, s2, sigsOf_nil (t := [m]) (by simpa using hsig)]
          rfl
        · have e1 : past ++ (q ++ [m] ++ q') = (past ++ q ++ [m]) ++ q' := by simp
          have e2 : sessionIn cfg (past ++ q ++ [m]) = some ⟨f, q2, first, sofar ++ chunk⟩ := by
            rw [hnext]
            unfold acks at hack
            unfold feed
            simp only [hrole] at hack ⊢
            rcases hmid with e | e
            · rw [e] at hack; cases hack
            · rw [e] at hack ⊢
              simp only [decide_eq_true_eq] at hack
              simp only [if_pos hack]
          rw [e1]
          rcases sessionIn_quiet (cfg := cfg) (past := past ++ q ++ [m]) hq' with e | e
          · rw [e, e2]; exact .inr rfl
          · exact .inl e
      · have hlast : idx = num := by
          apply Classical.byContradiction
          intro e
          rw [if_neg e] at hrole
          unfold feed at hfeed
          simp only [hrole] at hfeed
          rcases hmid with e | e
          · rw [e] at hfeed; cases hfeed
          · rw [e] at hfeed
            dsimp only at hfeed
            split at hfeed <;> cases hfeed
        rw [if_pos hlast] at hrole
        have hval : p2 = q2 ∧ fst = first ∧ x.msg = sofar ++ chunk := by
          unfold feed at hfeed
          simp only [hrole] at hfeed
          rcases hmid with e | e
          · rw [e] at hfeed; cases hfeed
          · rw [e] at hfeed
            dsimp only at hfeed
            split at hfeed
            · simp only [Option.some.injEq, Prod.mk.injEq] at hfeed
              exact ⟨hfeed.1.symm, hfeed.2.1.symm, hfeed.2.2.symm⟩
            · cases hfeed
        obtain ⟨rfl, rfl, hmsg⟩ := hval
        have hlen : ¬ a.length < 2 := by rw [ha]; simp; omega
        rw [if_neg hlen, if_pos (by rw [hs]; simp), hs] at hr
        subst hr
        refine .signed rfl (by simpa using hlast) x ⟨?_, hmsg, hcv, hfirst, ⟨rm, ?_, hd⟩,
          ⟨l, by simp, hsg⟩, by rw [ha]⟩
        · rw [sigsOf_append, sigsOf_append, s1, s2, sigsOf_append, sigsOf_nil hi']
          simp [sigsOf, hl]
        · simp only [List.mem_append]
          exact .inl (.inr (by simpa using hrm))
    · refine .failed ?_ ?_
      · rw [hr]
        split
        · decide
        · split <;> exact hs
      · rw [sigsOf_append, sigsOf_append, s1, s2, he.unsigned (fun m hm => hmem m (by simp [hm])) hs]
        rfl

theorem Answers.extend {c : SignCall} {a t b : List Moment} {q2 : UInt8} {first msg : Bytes}
    {body : Option (Bytes × Bytes)} {x : SigRec} (h : Answers c t q2 first msg body x) (ha : sigsOf a = [])
    (hb : sigsOf b = []) : Answers c (a ++ t ++ b) q2 first msg body x := by
  refine ⟨?_, h.msg, h.curve, h.path, ?_, ?_, h.body⟩
  · rw [sigsOf_append, sigsOf_append, ha, hb, h.sigs]; rfl
  · obtain ⟨m, hm, hd⟩ := h.digest
    exact ⟨m, by simp [hm], hd⟩
  · obtain ⟨m, hm, hd⟩ := h.signed
    exact ⟨m, by simp [hm], hd⟩

theorem SignCall.sendRest_res {cfg : Config} {new : NewDevice} {es : List (Env × Event)} {past t rest : List Moment}
    {c : SignCall} {f : Accessor} {num i : Nat} {q2 : UInt8} {first sofar : Bytes} {chunks : List Bytes}
    {r0 r : SignResponse} (hu : new.upload.length = uploadCapacity) (hg : ∀ e ∈ es, Good e.1 e.2)
    (h : (Dev.factory new).trace cfg es = past ++ (t ++ rest)) (hf : familyOf cfg.build c.ins = some f)
    (hsess : sessionIn cfg past = none ∨ sessionIn cfg past = some ⟨f, q2, first, sofar⟩) (hi : 0 < i)
    (hnum : num = i + chunks.length) (hne : chunks ≠ []) (ht : Talk (c.sendRest num i chunks r0) t r) :
    (r.returnCode ≠ 0x9000 ∧ sigsOf t = []) ∨
    (r.returnCode = 0x9000 ∧ ∃ x, Answers c t q2 first (sofar ++ chunks.flatten) r.body x) := by
  induction chunks generalizing past t i sofar r0 with
  | nil => exact absurd rfl hne
  | cons chunk chunks ih =>
    have hmem : ∀ m ∈ t, m ∈ (Dev.factory new).trace cfg es := fun m hm => by rw [h]; simp [hm]
    unfold SignCall.sendRest at ht
    obtain ⟨t1, t2, r1, rfl, h1, h2⟩ := ht.bind
    have h' : (Dev.factory new).trace cfg es = past ++ (t1 ++ (t2 ++ rest)) := by rw [h]; simp
    cases SignCall.sendChunk_res hu hg h' hf hsess (by omega) h1 with
    | failed hr hs =>
      rw [if_pos hr] at h2
      obtain ⟨rfl, hq⟩ := h2.of_done
      refine .inl ⟨hr, ?_⟩
      rw [sigsOf_append, hs, quiet_unsigned (fun m hm => hmem m (by simp [hm])) hq]
      rfl
    | acked hr hs hl hn =>
      rw [if_neg (by rw [hr]; simp)] at h2
      have hne' : chunks ≠ [] := by
        rintro rfl
        simp only [List.length_cons, List.length_nil] at hnum
        have : 1 + i = num := by omega
        simp [this] at hl
      have h'' : (Dev.factory new).trace cfg es = (past ++ t1) ++ (t2 ++ rest) := by rw [h]; simp
      rcases ih (past := past ++ t1) (t := t2) h'' hn (by omega) (by simp only [List.length_cons] at hnum; omega) hne' h2 with
        ⟨hr', hs'⟩ | ⟨hr', x, hx⟩
      · exact .inl ⟨hr', by rw [sigsOf_append, hs, hs']; rfl⟩
      · refine .inr ⟨hr', x, ?_⟩
        have := hx.extend (a := t1) (b := []) hs rfl
        simpa using this
    | signed hr hl x hx =>
      rw [if_neg (by rw [hr]; simp)] at h2
      have hnil : chunks = [] := by
        simp only [decide_eq_true_eq] at hl
        simp only [List.length_cons] at hnum
        exact List.length_eq_zero_iff.mp (by omega)
      subst hnil
      unfold SignCall.sendRest at h2
      obtain ⟨rfl, hq⟩ := h2.of_done
      refine .inr ⟨hr, x, ?_⟩
      have := hx.extend (a := []) (b := t2) rfl (quiet_unsigned (fun m hm => hmem m (by simp [hm])) hq)
      simpa using this

/-- The answer to an opening packet. -/
theorem Exchange.opening {cfg : Config} {new : NewDevice} {es : List (Env × Event)} {past seg rest : List Moment}
    {ins p2 : UInt8} {data a : Bytes} {f : Accessor} (hu : new.upload.length = uploadCapacity)
    (hg : ∀ e ∈ es, Good e.1 e.2) (h : (Dev.factory new).trace cfg es = past ++ (seg ++ rest))
    (he : Exchange ins 0 p2 data a seg) (hf : familyOf cfg.build ins = some f) :
    sigsOf seg = [] ∧ a = [0x90, 0x00] ∧ sessionIn cfg (past ++ seg) = some ⟨f, p2, data, []⟩ := by
  have key : ∀ m rest', (Dev.factory new).trace cfg es = past ++ m :: rest' → Carries m.ev ins 0 p2 data →
      m.st.running = true → m.out = ⟨some [0x90, 0x00], none, none⟩ ∧
        sessionIn cfg (past ++ [m]) = some ⟨f, p2, data, []⟩ := by
    intro m rest' hm hcar hrun
    obtain ⟨ea, eb, hes, _, ha', hst, hout, _⟩ := Dev.trace_split hm
    have hgood : Good m.env m.ev := hg (m.env, m.ev) (by rw [hes]; simp)
    have hinv : UplInv m.st.upl (sessionIn cfg past) := by
      rw [ha', hst]
      exact factory_session hu fun e he => hg e (by rw [hes]; simp [he])
    obtain ⟨u, _, hstep⟩ := Dev.step_acked hgood hrun hinv (hcar.packet hf) rfl
    refine ⟨by rw [hout, hstep, statusWord_success], ?_⟩
    obtain ⟨buf, rx, hev⟩ := hcar.isApdu
    rw [sessionIn_append]
    simp only [List.foldl_cons, List.foldl_nil, sessionStep, hrun, if_true, hcar.packet hf]
    rw [if_neg (by rw [hev]; simp)]
    rfl
  cases he with
  | @atOnce m hcar hr =>
    have hrun : m.st.running = true := by
      cases hb : m.st.running with
      | true => rfl
      | false =>
        obtain ⟨ea, eb, hes, _, ha', hst, hout, _⟩ := Dev.trace_split h
        rw [hout, (Dev.step_stopped hb).1] at hr; cases hr
    obtain ⟨ho, hs⟩ := key m rest h hcar hrun
    refine ⟨sigsOf_nil (by simp [ho]), ?_, hs⟩
    rw [ho] at hr
    exact (Option.some.inj hr).symm
  | @later m l q hcar hn hq hl hr =>
    exfalso
    obtain ⟨buf0, rx0, hev⟩ := hcar.isApdu
    have ht : (Dev.factory new).trace cfg es = past ++ m :: (q ++ l :: rest) := by rw [h]; simp
    obtain ⟨v, hop, _⟩ := answered_later ht hev hn (fun y hy => (hq y hy).button) hl hr
    obtain ⟨buf, rx, c', p, u, hrec, _⟩ := hop.ex
    rw [(key m _ ht hcar hrec.running).1] at hn
    cases hn

/-- Signing through the client, whatever the call. -/
theorem SignCall.sign_res {cfg : Config} {new : NewDevice} {es : List (Env × Event)} {past t rest : List Moment}
    {js : Js} {c : SignCall} {f : Accessor} {path message : Bytes} {r : SignResponse}
    (hu : new.upload.length = uploadCapacity) (hg : ∀ e ∈ es, Good e.1 e.2)
    (h : (Dev.factory new).trace cfg es = past ++ (t ++ rest)) (hf : familyOf cfg.build c.ins = some f)
    (hne : message ≠ []) (ht : Talk (SignCall.sign js c path message) t r) :
    (r.returnCode ≠ 0x9000 ∧ sigsOf t = []) ∨
    (r.returnCode = 0x9000 ∧ ∃ p x, serializePath js path = some p ∧ Answers c t c.curve p message r.body x) := by
  have hmem : ∀ m ∈ t, m ∈ (Dev.factory new).trace cfg es := fun m hm => by rw [h]; simp [hm]
  unfold SignCall.sign at ht
  split at ht
  · obtain ⟨rfl, hq⟩ := ht.of_done
    exact .inl ⟨by decide, quiet_unsigned hmem hq⟩
  · rename_i p hp
    obtain ⟨cs, hcs, hcne, hflat⟩ := prepareChunks_eq message p hne
    rw [hcs] at ht
    unfold SignCall.sendAll at ht
    obtain ⟨t1, t2, r1, rfl, h1, h2⟩ := ht.bind
    unfold SignCall.sendChunk at h1
    have hp1 : c.p1 1 (1 + cs.length) = 0 := by
      unfold SignCall.p1
      have : 0 < cs.length := List.length_pos_iff.mpr hcne
      simp only [if_true, show ¬ 1 = 1 + cs.length by omega, if_false]
    rw [hp1, if_pos rfl] at h1
    have hlast : ∀ past', (sessionIn cfg past' = none ∨ sessionIn cfg past' = some ⟨f, c.curve, p, []⟩) →
        past' = past ++ t1 → sigsOf t1 = [] →
        (r.returnCode ≠ 0x9000 ∧ sigsOf (t1 ++ t2) = []) ∨ (r.returnCode = 0x9000 ∧ ∃ p' x, some p = some p' ∧
          Answers c (t1 ++ t2) c.curve p' message r.body x) := by
      rintro past' hs rfl hs1
      have h'' : (Dev.factory new).trace cfg es = (past ++ t1) ++ (t2 ++ rest) := by rw [h]; simp
      rcases SignCall.sendRest_res hu hg h'' hf hs (by omega) rfl hcne h2 with ⟨hr, hs'⟩ | ⟨hr, x, hx⟩
      · exact .inl ⟨hr, by rw [sigsOf_append, hs1, hs']; rfl⟩
      · refine .inr ⟨hr, p, x, rfl, ?_⟩
        rw [List.nil_append, hflat] at hx
        have := hx.extend (a := t1) (b := []) hs1 rfl
        simpa using this
    rw [hp]
    rcases h1.of_process with ⟨⟨hlen, hq⟩, rfl⟩ | ⟨q, s, q', a, rfl, hq, hq', he, hr⟩
    · exfalso
      obtain ⟨cs', hcs', rfl⟩ := serializePath_some hp
      rw [List.length_cons, flatMap_be32_length] at hlen
      omega
    · have h' : (Dev.factory new).trace cfg es = (past ++ q) ++ (s ++ (q' ++ t2 ++ rest)) := by rw [h]; simp
      obtain ⟨ho1, ho2, ho3⟩ := Exchange.opening hu hg h' he hf
      refine hlast _ ?_ rfl ?_
      · have e1 : past ++ (q ++ s ++ q') = (past ++ q ++ s) ++ q' := by simp
        rw [e1]
        rcases sessionIn_quiet (cfg := cfg) (past := past ++ q ++ s) hq' with e | e
        · rw [e, ho3]; exact .inr rfl
        · exact .inl e
      · rw [sigsOf_append, sigsOf_append, ho1, quiet_unsigned (fun m hm => hmem m (by simp [hm])) hq,
          quiet_unsigned (fun m hm => hmem m (by simp [hm])) hq']
        rfl

/-! ### Instructions the app does not have -/

theorem Exchange.unknown {cfg : Config} {s0 : Dev} {es : List (Env × Event)} {past seg rest : List Moment}
    {ins p1 p2 : UInt8} {data a : Bytes} (h : s0.trace cfg es = past ++ (seg ++ rest))
    (he : Exchange ins p1 p2 data a seg) (hc : command cfg.build ins = none) : statusOf a ≠ 0x9000 := by
  have key : ∀ m rest', s0.trace cfg es = past ++ m :: rest' → Carries m.ev ins p1 p2 data →
      m.st.running = true → ∃ e, e ≠ .success ∧ m.out.reply = some (statusWord e) := by
    intro m rest' hm hcar hrun
    obtain ⟨ea, eb, hes, _, ha', hst, hout, _⟩ := Dev.trace_split hm
    obtain ⟨tail, hev, _⟩ := hcar.ex
    rw [hout, hev]
    rcases Dev.apdu_refused_or cfg m.env _ _ hrun with ⟨e, hne, hs⟩ | ⟨c, hrec, hs⟩
    · exact ⟨e, hne, by rw [hs]; rfl⟩
    · obtain ⟨ins', h1, h2⟩ := hrec.cmd
      have : ins' = ins := (Option.some.inj h1).symm
      rw [this, hc] at h2
      cases h2
  intro hs
  cases he with
  | @atOnce m hcar hr =>
    have hrun : m.st.running = true := by
      cases hb : m.st.running with
      | true => rfl
      | false =>
        obtain ⟨ea, eb, hes, _, ha', hst, hout, _⟩ := Dev.trace_split h
        rw [hout, (Dev.step_stopped hb).1] at hr; cases hr
    obtain ⟨e, hne, ho⟩ := key m rest h hcar hrun
    rw [hr] at ho
    cases ho
    exact hne (status_success hs)
  | @later m l q hcar hn hq hl hr =>
    obtain ⟨buf0, rx0, hev⟩ := hcar.isApdu
    have ht : s0.trace cfg es = past ++ m :: (q ++ l :: rest) := by rw [h]; simp
    obtain ⟨v, hop, _⟩ := answered_later ht hev hn (fun y hy => (hq y hy).button) hl hr
    obtain ⟨buf, rx, c', p, u, hrec, _⟩ := hop.ex
    obtain ⟨e, hne, ho⟩ := key m _ ht hcar hrec.running
    rw [hn] at ho
    cases ho

theorem SignCall.sendChunk_unknown {cfg : Config} {new : NewDevice} {es : List (Env × Event)} {past t rest : List Moment}
    {c : SignCall} {idx num : Nat} {chunk : Bytes} {r : SignResponse}
    (h : (Dev.factory new).trace cfg es = past ++ (t ++ rest)) (hc : command cfg.build c.ins = none)
    (ht : Talk (c.sendChunk idx num chunk) t r) : r.returnCode ≠ 0x9000 ∧ sigsOf t = [] := by
  have hmem : ∀ m ∈ t, m ∈ (Dev.factory new).trace cfg es := fun m hm => by rw [h]; simp [hm]
  unfold SignCall.sendChunk at ht
  rcases ht.of_process with ⟨⟨_, hq⟩, rfl⟩ | ⟨q, s, q', a, rfl, hq, hq', he, hr⟩
  · exact ⟨by decide, quiet_unsigned hmem hq⟩
  · have h' : (Dev.factory new).trace cfg es = (past ++ q) ++ (s ++ (q' ++ rest)) := by rw [h]; simp
    have hs := he.unknown h' hc
    refine ⟨?_, ?_⟩
    · rw [hr]
      split
      · decide
      · split <;> exact hs
    · rw [sigsOf_append, sigsOf_append, quiet_unsigned (fun m hm => hmem m (by simp [hm])) hq,
        quiet_unsigned (fun m hm => hmem m (by simp [hm])) hq', he.unsigned (fun m hm => hmem m (by simp [hm])) hs]
      rfl

theorem SignCall.sign_unknown {cfg : Config} {new : NewDevice} {es : List (Env × Event)} {past t rest : List Moment}
    {js : Js} {c : SignCall} {path message : Bytes} {r : SignResponse}
    (h : (Dev.factory new).trace cfg es = past ++ (t ++ rest)) (hc : command cfg.build c.ins = none)
    (hne : message ≠ []) (ht : Talk (SignCall.sign js c path message) t r) :
    r.returnCode ≠ 0x9000 ∧ sigsOf t = [] := by
  have hmem : ∀ m ∈ t, m ∈ (Dev.factory new).trace cfg es := fun m hm => by rw [h]; simp [hm]
  unfold SignCall.sign at ht
  split at ht
  · obtain ⟨rfl, hq⟩ := ht.of_done
    exact ⟨by decide, quiet_unsigned hmem hq⟩
  · rename_i p hp
    obtain ⟨cs, hcs, hcne, hflat⟩ := prepareChunks_eq message p hne
    rw [hcs] at ht
    unfold SignCall.sendAll at ht
    obtain ⟨t1, t2, r1, rfl, h1, h2⟩ := ht.bind
    cases cs with
    | nil => exact absurd rfl hcne
    | cons chunk cs =>
      unfold SignCall.sendRest at h2
      obtain ⟨t3, t4, r2, rfl, h3, h4⟩ := h2.bind
      obtain ⟨_, hs1⟩ := SignCall.sendChunk_unknown (past := past) (t := t1) (rest := t3 ++ t4 ++ rest) (by rw [h]; simp) hc h1
      obtain ⟨hr2, hs2⟩ := SignCall.sendChunk_unknown (past := past ++ t1) (t := t3) (rest := t4 ++ rest) (by rw [h]; simp) hc h3
      rw [if_pos hr2] at h4
      obtain ⟨rfl, hq⟩ := h4.of_done
      refine ⟨hr2, ?_⟩
      rw [sigsOf_append, sigsOf_append, hs1, hs2, quiet_unsigned (fun m hm => hmem m (by simp [hm])) hq]
      rfl

/-! ### C62 -/

/-- The calls of the client that ask for a signature and a hash, with the byte put in front of the message. -/
inductive SigningRequest (js : Js) (path : Bytes) (curve : UInt8) (message : Bytes) :
    UInt8 → Client SignResponse → Prop where
  | operation : SigningRequest js path curve message 3 (signOperation js path curve message)
  | michelson : SigningRequest js path curve message 5 (signMichelson js path curve message)
  | block {b : UInt8} {c : Client SignResponse} (hv : (message[90]? = some 0 ∨ message[90]? = some 1) ∧ b = 0x01 ∨
      message[90]? = some 2 ∧ b = 0x11) (hc : signBaker js path curve message .blocklevel = some c) :
      SigningRequest js path curve message b c
  | endorsement {b : UInt8} {c : Client SignResponse} (hv : message[36]? = some 20 ∧ b = 0x12 ∨
      message[36]? = some 21 ∧ b = 0x13 ∨ message[36]? ≠ some 20 ∧ message[36]? ≠ some 21 ∧ b = 0x02)
      (hc : signBaker js path curve message .endorsement = some c) : SigningRequest js path curve message b c
  | delegation {c : Client SignResponse} (hc : signBaker js path curve message .delegation = some c) :
      SigningRequest js path curve message 3 c
  | legacyBlock : SigningRequest js path curve message 1 (legacySignWithHash js path curve message .blocklevel)
  | legacyEndorsement :
      SigningRequest js path curve message 2 (legacySignWithHash js path curve message .endorsement)
  | legacyOperation : SigningRequest js path curve message 3 (legacySignWithHash js path curve message .operation)
  | legacyMichelson : SigningRequest js path curve message 5 (legacySignWithHash js path curve message .michelson)

theorem SigningRequest.call {js : Js} {path : Bytes} {curve : UInt8} {message : Bytes} {b : UInt8}
    {call : Client SignResponse} (h : SigningRequest js path curve message b call) :
    ∃ c : SignCall, c.ins ∈ hashInstructions ∧ c.withHash = true ∧ c.curve = curve ∧
      call = SignCall.sign js c path (b :: message) := by
  cases h with
  | operation => exact ⟨⟨0x12, false, true, curve⟩, by simp [hashInstructions], rfl, rfl, rfl⟩
  | michelson => exact ⟨⟨0x12, false, true, curve⟩, by simp [hashInstructions], rfl, rfl, rfl⟩
  | block hv hc =>
    refine ⟨⟨0xaf, false, true, curve⟩, by simp [hashInstructions], rfl, rfl, ?_⟩
    rcases hv with ⟨h | h, rfl⟩ | ⟨h, rfl⟩ <;>
    · simp only [signBaker, BakerMessage.magic, h, Option.map_some, Option.some.injEq] at hc
      exact hc.symm
  | endorsement hv hc =>
    refine ⟨⟨0xaf, false, true, curve⟩, by simp [hashInstructions], rfl, rfl, ?_⟩
    rcases hv with ⟨h, rfl⟩ | ⟨h, rfl⟩ | ⟨h1, h2, rfl⟩
    · simp only [signBaker, BakerMessage.magic, h, Option.map_some, Option.some.injEq] at hc
      exact hc.symm
    · simp only [signBaker, BakerMessage.magic, h, Option.map_some, Option.some.injEq] at hc
      exact hc.symm
    · have : BakerMessage.magic .endorsement message = some 0x02 := by
        simp only [BakerMessage.magic]
      simp only [signBaker, this, Option.map_some, Option.some.injEq] at hc
      exact hc.symm
  | delegation hc =>
    refine ⟨⟨0xaf, false, true, curve⟩, by simp [hashInstructions], rfl, rfl, ?_⟩
    simp only [signBaker, BakerMessage.magic, Option.map_some, Option.some.injEq] at hc
    exact hc.symm
  | legacyBlock => exact ⟨⟨0x0f, true, true, curve⟩, by simp [hashInstructions], rfl, rfl, rfl⟩
  | legacyEndorsement => exact ⟨⟨0x0f, true, true, curve⟩, by simp [hashInstructions], rfl, rfl, rfl⟩
  | legacyOperation => exact ⟨⟨0x0f, true, true, curve⟩, by simp [hashInstructions], rfl, rfl, rfl⟩
  | legacyMichelson => exact ⟨⟨0x0f, true, true, curve⟩, by simp [hashInstructions], rfl, rfl, rfl⟩

theorem flatMap_be32_inj {a b : List UInt32} (h : a.flatMap be32 = b.flatMap be32) : a = b := by
  rw [← readComponents_flatMap a, ← readComponents_flatMap b, h]

/-- C62: a call of the client that asks for a signature of a message with the key of a path returns success only if the
device handed out, during the call, exactly one signature: of this message with its byte in front, by the key of this
curve and path; and it then returns the hash of the message and that signature. If it returns anything else, the device
handed out no signature during the call. -/
theorem C62_signing (cfg : Config) (new : NewDevice) (hu : new.upload.length = uploadCapacity) (es : List (Env × Event))
    (hg : ∀ e ∈ es, Good e.1 e.2) (hcr : ∀ e ∈ es, e.1.cr.Sized) (past t rest : List Moment)
    (h : (Dev.factory new).trace cfg es = past ++ (t ++ rest)) (js : Js) (hjs : js.ReadsDecimal) (path : Bytes)
    (cs : List Component) (hcs : IsPathText path cs) (curve : UInt8) (message : Bytes) (b : UInt8)
    (call : Client SignResponse) (hcall : SigningRequest js path curve message b call) (r : SignResponse)
    (ht : Talk call t r) :
    (r.returnCode ≠ 0x9000 ∧ sigsOf t = []) ∨
    (r.returnCode = 0x9000 ∧ ∃ x, sigsOf t = [x] ∧ x.msg = b :: message ∧ Curve.ofByte curve = some x.curve ∧
      x.path = cs.map Component.bits ∧ (∃ m ∈ t, m.env.cr.blake2b 32 (b :: message) = some x.digest) ∧
      (∃ m ∈ t, m.env.cr.sign x.curve x.path x.digest = some x.sig) ∧ r.body = some (x.digest, x.sig)) := by
  obtain ⟨c, hins, hwith, rfl, rfl⟩ := hcall.call
  cases hc : command cfg.build c.ins with
  | none => exact .inl (SignCall.sign_unknown h hc (by simp) ht)
  | some cmd =>
    have hf : ∃ f, familyOf cfg.build c.ins = some f := by
      revert hc hins
      generalize c.ins = ins
      intro hins hc
      simp only [hashInstructions, List.mem_cons, List.not_mem_nil, or_false] at hins
      rcases hins with rfl | rfl | rfl <;> cases hb : cfg.build <;> rw [hb] at hc <;>
        first | exact ⟨_, rfl⟩ | cases hc
    obtain ⟨f, hf⟩ := hf
    rcases SignCall.sign_res hu hg h hf (by simp) ht with hr | ⟨hr, p, x, hp, hx⟩
    · exact .inl hr
    · refine .inr ⟨hr, x, hx.sigs, hx.msg, hx.curve, ?_, by rw [← hx.msg]; exact hx.digest, hx.signed, ?_⟩
      · rw [C63_path_text js hjs path cs hcs] at hp
        split at hp
        · have := (Option.some.inj hp).trans hx.path
          exact (flatMap_be32_inj (List.cons.inj this).2).symm
        · cases hp
      · rw [hx.body, if_pos hins]
        obtain ⟨m, hm, hd⟩ := hx.digest
        have hmt : (m.env, m.ev) ∈ es := by
          obtain ⟨ea, eb, hab⟩ := List.append_of_mem (show m ∈ (Dev.factory new).trace cfg es by rw [h]; simp [hm])
          obtain ⟨_, _, rfl, _⟩ := Dev.trace_split hab
          simp
        have hl : x.digest.length = 32 := (hcr _ hmt).blake2b hd
        unfold SignCall.readAnswer
        have hst : statusOf (x.digest ++ x.sig ++ [0x90, 0x00]) = 0x9000 := statusOf_append _ 0x90 0x00
        rw [if_pos ⟨hst, by simp [hl]; omega⟩, if_pos hwith]
        congr 2
        · rw [List.append_assoc, ← hl, List.take_left]
        · unfold dropStatus
          have : (x.digest ++ x.sig ++ [0x90, 0x00]).length - 2 = (x.digest ++ x.sig).length := by simp; omega
          rw [this, List.take_left, ← hl, List.drop_left]

namespace Demo

/-- A stand-in for what the client takes from its environment. -/
def js : Js where
  number t := if t ≠ [] ∧ ∀ c ∈ t, 48 ≤ c.toNat ∧ c.toNat ≤ 57 then some (textValue t : Int) else none
  blake2b n m := hash n m
  sha256 m := hash 32 m
  bs58 m := base58 m

theorem js_decimal : js.ReadsDecimal := by
  intro t n h
  simp only [js]
  rw [if_pos ⟨h.nonempty, h.digits⟩, h.value]

/-- The text m/44'/1729' -/
def pathText : Bytes := ascii "m/44'/1729'"

/-- `pathText` is the path that `keyPath` carries. -/
theorem pathText_is : IsPathText pathText [⟨44, true⟩, ⟨1729, true⟩] := by
  refine ⟨[(ascii "44'", ⟨44, true⟩), (ascii "1729'", ⟨1729, true⟩)], ?_, rfl, by decide⟩
  intro p hp
  simp only [List.mem_cons, List.not_mem_nil, or_false] at hp
  rcases hp with rfl | rfl
  · exact ⟨ascii "44", ⟨by decide, by simp only [isDigit]; decide, by decide⟩, by decide⟩
  · exact ⟨ascii "1729", ⟨by decide, by simp only [isDigit]; decide, by decide⟩, by decide⟩

example : serializePath js pathText = some keyPath := by decide

/-- An operation is signed through the client: two APDUs, eleven pages, approval; then the same is rejected. -/
def clientSigns : List (Env × Event) :=
  ok <| [apdu 0x12 0 0 keyPath, apdu 0x12 2 0 delegation] ++ List.replicate 11 .right ++ [.both] ++
    [apdu 0x12 0 0 keyPath, apdu 0x12 2 0 delegation] ++ List.replicate 12 .right ++ [.both]

set_option maxRecDepth 100000 in
/-- The hypotheses of `C62_signing`, with success and with failure. -/
example :
    let t := (Dev.factory ⟨.small, List.replicate uploadCapacity 0⟩).trace walletApp clientSigns
    let d := hash 32 delegation
    delegation.head? = some 3 ∧
    play (t.take 14) (.inl (signOperation js pathText 0 (delegation.drop 1))) =
      some ⟨0x9000, some (d, hash 64 (0 :: keyPath.drop 1 ++ d))⟩ ∧
    play (t.drop 14) (.inl (signOperation js pathText 0 (delegation.drop 1))) = some ⟨0x6986, none⟩ := by
  decide +kernel

end Demo

end Tezos
