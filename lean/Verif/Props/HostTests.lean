import Verif.HostTests
import Verif.Spec.Ascending
import Verif.Props.Host
import Verif.Props.Granted
import Verif.Props.Consensus
import Verif.Props.Client
/-
What the integration tests on a computer send, and what the test of a baker's messages shows.
-/
namespace Tezos
open Spec

/-! ### One command -/

theorem testBuffer_carries {ins p1 p2 : UInt8} {data : Bytes} (h : data.length ≤ 255) :
    Carries (.apdu (testBuffer ins p1 p2 data) (5 + data.length)) ins p1 p2 data :=
  ⟨List.replicate (255 - data.length) 0, rfl, by simp only [List.length_replicate]; omega⟩

theorem Dev.processApdu_eq {cfg : Config} {env : Env} {ins p1 p2 : UInt8} {data : Bytes} {s : Dev} {c : Cmd}
    (hrun : s.running = true) (hc : command cfg.build ins = some c) (hl : data.length ≤ 255) :
    s.processApdu cfg env ins p1 p2 data =
      testAnswer (s.execWith (mockShow env) cfg env c p1 p2 (some data)).deliver := by
  obtain ⟨buf, hr, h2, h3, h4⟩ := (testBuffer_carries (p1 := p1) (p2 := p2) hl).received (cfg := cfg) hrun hc
  obtain ⟨hbuf, -, hlen, hcla, i, hins, hcmd⟩ := hr
  obtain ⟨rfl, -⟩ := Event.apdu.inj hbuf
  have h0 : (testBuffer ins p1 p2 data).getD 0 0 = 0x80 := rfl
  have h1 : (testBuffer ins p1 p2 data).getD 1 0 = i := by rw [List.getD_eq_getElem?_getD, hins]; rfl
  rw [Dev.processApdu, if_neg (by omega)]
  simp only [Dev.hostApdu, hrun, if_true, Dev.dispatchWith, h0, h1, hcmd, h2, h3, h4]
  rw [if_neg (by omega), if_neg (by decide)]

/-! ### C106: what is sent -/

/-- The packets of an upload of `message` for the key `key`: an opening one with the key, then the message in order, the
last packet being the closing one. -/
def SentAsUpload (ins p2 : UInt8) (key message : Bytes) (evs : List Event) : Prop :=
  ∃ us last p1 q2 d1 d2, evs = us ++ [last] ∧ Uploading ins p2 key d1 us ∧ role p1 = some .closing ∧
    Carries last ins p1 q2 d2 ∧ message = d1 ++ d2

/-- The commands among the events. -/
def commands (env : Env) (evs : List Event) : List (Env × Bytes × Nat) :=
  evs.filterMap fun
    | .apdu buf rx => some (env, buf, rx)
    | _ => none

/-- The packets of the loop. -/
def testPackets (ins : UInt8) : List Bytes → List Event
  | [] => []
  | c :: cs => .apdu (testBuffer ins (if cs = [] then 2 else 1) 0 c) (5 + c.length) :: testPackets ins cs

theorem testPackets_length (ins : UInt8) (cs : List Bytes) : (testPackets ins cs).length = cs.length := by
  induction cs with
  | nil => rfl
  | cons c cs ih => simp only [testPackets, List.length_cons, ih]

theorem testPackets_upload {ins : UInt8} {cs : List Bytes} (hne : cs ≠ []) (hl : ∀ c ∈ cs, c.length ≤ 255) :
    ∃ mids last d1 d2, testPackets ins cs = mids ++ [last] ∧ Chunks ins mids d1 ∧ Carries last ins 2 0 d2 ∧
      cs.flatten = d1 ++ d2 := by
  induction cs with
  | nil => exact absurd rfl hne
  | cons c cs ih =>
    have hc : c.length ≤ 255 := hl c (by simp)
    by_cases hcs : cs = []
    · subst hcs
      exact ⟨[], _, [], c, rfl, .nil, testBuffer_carries hc, by simp⟩
    · obtain ⟨mids, last, d1, d2, h1, h2, h3, h4⟩ := ih hcs fun x hx => hl x (by simp [hx])
      refine ⟨_ :: mids, last, c ++ d1, d2, by rw [testPackets, h1]; rfl, ?_, h3, by simp [h4]⟩
      rw [if_neg hcs]
      exact .cons (p1 := 1) (p2 := 0) (by decide) (testBuffer_carries hc) h2

theorem Dev.processApdu_some {cfg : Config} {env : Env} {ins p1 p2 : UInt8} {data a : Bytes} {s s' : Dev}
    (h : s.processApdu cfg env ins p1 p2 data = some (s', a)) : data.length ≤ 255 ∧
      (s.hostApdu cfg env (testBuffer ins p1 p2 data) (5 + data.length)).1 = s' ∧
      (s.hostApdu cfg env (testBuffer ins p1 p2 data) (5 + data.length)).2.reply = some a := by
  unfold Dev.processApdu at h
  split at h
  · cases h
  · refine ⟨by omega, ?_⟩
    unfold testAnswer at h
    split at h
    · cases h
    · rename_i b hb
      split at h
      · cases h
      · cases h
        exact ⟨rfl, hb⟩

theorem Dev.sendChunks_some {cfg : Config} {env : Env} {ins : UInt8} {cs : List Bytes} {s s' : Dev} {a₀ a : Bytes}
    (h : Dev.sendChunks cfg env ins cs s a₀ = some (s', a)) :
    ∃ replies : List Bytes, replies.length ≤ cs.length ∧
      (s.hostRun cfg (commands env ((testPackets ins cs).take replies.length))).1 = s' ∧
      (s.hostRun cfg (commands env ((testPackets ins cs).take replies.length))).2.map Output.reply = replies.map some ∧
      (a₀ :: replies).getLast? = some a ∧ (∀ b ∈ (a₀ :: replies).dropLast, retcode b = 0x9000) ∧
      (replies.length < cs.length → retcode a ≠ 0x9000) := by
  induction cs generalizing s a₀ with
  | nil =>
    cases h
    exact ⟨[], Nat.le_refl _, rfl, rfl, rfl, by simp, by simp⟩
  | cons c cs ih =>
    unfold Dev.sendChunks at h
    split at h
    · rename_i hr
      cases h
      exact ⟨[], Nat.zero_le _, rfl, rfl, rfl, by simp, fun _ => hr⟩
    · rename_i hr
      split at h
      · cases h
      · rename_i s₁ a₁ hp
        obtain ⟨-, h1, h2⟩ := Dev.processApdu_some hp
        obtain ⟨replies, i1, i2, i3, i4, i5, i6⟩ := ih h
        refine ⟨a₁ :: replies, by simp only [List.length_cons]; omega, ?_, ?_, ?_, ?_, fun hlt => i6 (by
          simp only [List.length_cons] at hlt; omega)⟩
        · simp only [testPackets, List.length_cons, List.take_succ_cons, commands, List.filterMap_cons, Dev.hostRun]
          rw [h1]
          exact i2
        · simp only [testPackets, List.length_cons, List.take_succ_cons, commands, List.filterMap_cons, Dev.hostRun,
            List.map_cons]
          rw [h1, h2]
          exact congrArg _ i3
        · rw [List.getLast?_cons_cons]
          exact i4
        · intro b hb
          rw [List.dropLast_cons_of_ne_nil (by simp)] at hb
          rcases List.mem_cons.mp hb with rfl | hb
          · exact Decidable.not_not.mp hr
          · exact i5 b hb

theorem testChunks_flatten (m : Bytes) : (testChunks m).flatten = m := by
  unfold testChunks
  rw [slices_flatten]
  exact List.take_of_length_le (by omega)

theorem testChunks_short {m c : Bytes} (h : c ∈ testChunks m) : c.length ≤ 250 := by
  obtain ⟨i, -, rfl⟩ := List.mem_map.mp h
  simp only [slice, List.length_take]
  omega

/-- C106, the helper of the tests: whatever it is asked to send, and whatever the answers, it sends a beginning of a
proper upload of the message with the given instruction, key and second parameter. It stops early exactly at the first
answer other than 0x9000, and hands out the last answer. -/
theorem C106_sends (cfg : Config) (env : Env) (s s' : Dev) (ins p2 : UInt8) (key message a : Bytes)
    (h : s.processChunks cfg env ins p2 key message = some (s', a)) :
    ∃ (evs : List Event) (replies : List Bytes), SentAsUpload ins p2 key message evs ∧ replies.length ≤ evs.length ∧
      (s.hostRun cfg (commands env (evs.take replies.length))).1 = s' ∧
      (s.hostRun cfg (commands env (evs.take replies.length))).2.map Output.reply = replies.map some ∧
      replies.getLast? = some a ∧ (∀ b ∈ replies.dropLast, retcode b = 0x9000) ∧
      (replies.length < evs.length → retcode a ≠ 0x9000) := by
  unfold Dev.processChunks at h
  simp only at h
  split at h
  · cases h
  · rename_i hlen
    split at h
    · cases h
    · rename_i s₁ a₁ hp
      obtain ⟨hk, h1, h2⟩ := Dev.processApdu_some hp
      obtain ⟨replies, i1, i2, i3, i4, i5, i6⟩ := Dev.sendChunks_some h
      obtain ⟨mids, last, d1, d2, u1, u2, u3, u4⟩ := testPackets_upload (ins := ins) (cs := testChunks message)
        (by intro h0; rw [h0] at hlen; simp at hlen) fun c hc => by have := testChunks_short hc; omega
      rw [testChunks_flatten] at u4
      refine ⟨.apdu (testBuffer ins 0 p2 key) (5 + key.length) :: testPackets ins (testChunks message), a₁ :: replies,
        ⟨_ :: mids, last, 2, 0, d1, d2, by rw [u1]; rfl, .mk (p1 := 0) (by decide) (testBuffer_carries hk) u2,
          by decide, u3, u4⟩, by simp only [List.length_cons, testPackets_length]; omega, ?_, ?_, i4, i5,
        fun hlt => i6 (by simp only [List.length_cons, testPackets_length] at hlt; omega)⟩
      · simp only [List.length_cons, List.take_succ_cons, commands, List.filterMap_cons, Dev.hostRun]
        rw [h1]
        exact i2
      · simp only [List.length_cons, List.take_succ_cons, commands, List.filterMap_cons, Dev.hostRun, List.map_cons]
        rw [h1, h2]
        exact congrArg _ i3

/-! ### C106: the test of a baker's messages -/

theorem retcode_ok (d : Bytes) : retcode (d ++ statusWord .success) = 0x9000 ∧ 2 ≤ (d ++ statusWord .success).length := by
  have hw : statusWord .success = [0x90, 0x00] := by decide
  rw [hw]
  refine ⟨?_, by simp⟩
  unfold retcode
  have h1 : (d ++ [(0x90 : UInt8), 0x00]).getD ((d ++ [(0x90 : UInt8), 0x00]).length - 2) 0 = 0x90 := by
    simp [List.getD_eq_getElem?_getD]
  have h2 : (d ++ [(0x90 : UInt8), 0x00]).getD ((d ++ [(0x90 : UInt8), 0x00]).length - 1) 0 = 0x00 := by
    simp [List.getD_eq_getElem?_getD]
  rw [h1, h2]
  rfl

theorem retcode_err {e : ApduError} (h : e ≠ .success) : retcode (statusWord e) ≠ 0x9000 := by
  revert h
  cases e <;> decide

theorem testAnswer_ok (st : Dev) (d : Bytes) (sig : Option SigRec) :
    testAnswer (Res.deliver ⟨st, .ok d, sig⟩) = some (st, d ++ statusWord .success) := by
  simp only [Res.deliver, testAnswer]
  rw [if_neg (by have := (retcode_ok d).2; omega)]

theorem succeeds_ok (st : Dev) (d : Bytes) (sig : Option SigRec) :
    succeeds (testAnswer (Res.deliver ⟨st, .ok d, sig⟩)) = some st := by
  rw [testAnswer_ok]
  simp only [succeeds, (retcode_ok d).1, if_true]

theorem succeeds_fails {s : Dev} {r : Res} (h : r.Fails s) (g : Dev → Dev) :
    succeeds (testAnswer (Res.deliver { r with st := g r.st })) = none := by
  obtain ⟨-, -, ⟨e, he, h⟩ | ⟨f, h⟩⟩ := h
  · simp only [Res.deliver, h, testAnswer]
    split
    · rfl
    · simp only [succeeds, retcode_err he, if_false]
  · simp only [Res.deliver, h, testAnswer, succeeds]

/-- A packet of a signing command that is acknowledged. -/
theorem Dev.processApdu_acked {cfg : Config} {env : Env} {ins p1 p2 : UInt8} {data : Bytes} {s : Dev} {h : Bool}
    {o : Option (Session Accessor)} (hrun : s.running = true) (hc : command cfg.build ins = some (.bakerSign h))
    (hl : data.length ≤ 255) (hco : env.copyF = .done) (hap : env.appendF = .done) (hi : UplInv s.upl o)
    (hn : (feed o ⟨Accessor.baking, p1, p2, data⟩).2 = none) (ha : acks o ⟨Accessor.baking, p1, p2, data⟩ = true) :
    ∃ u, UplInv u (feed o ⟨Accessor.baking, p1, p2, data⟩).1 ∧
      s.processApdu cfg env ins p1 p2 data = some ({ s with upl := u }, [] ++ statusWord .success) := by
  obtain ⟨hm, hu⟩ := (Upl.upload_fed hi ⟨Accessor.baking, p1, p2, data⟩ hl).none hn
  rw [if_pos ha] at hm
  refine ⟨_, hu, ?_⟩
  rw [Dev.processApdu_eq hrun hc hl]
  simp only at hm
  simp only [Dev.execWith, Dev.cmdUpload, hco, hap, hm]
  exact testAnswer_ok _ _ _

/-- What the device does with a complete upload for the baking commands. -/
def Dev.finishBaking (env : Env) (h : Bool) (p2 : UInt8) (key message : Bytes) (ref : MemRef) (s : Dev) : Res :=
  let f := s.bakerSignWith (mockShow env) env h p2 key message ref
  { f with st := { f.st with upl := f.st.upl.drop .baking } }

theorem Dev.sendChunks_complete {cfg : Config} {env : Env} {ins : UInt8} {s : Dev} {h : Bool} {a₀ : Bytes}
    {o : Session Accessor} (hrun : s.running = true) (hc : command cfg.build ins = some (.bakerSign h))
    (hco : env.copyF = .done) (hap : env.appendF = .done) (hi : UplInv s.upl (some o)) (hf : o.family = .baking)
    (h0 : retcode a₀ = 0x9000) {cs : List Bytes} (hne : cs ≠ []) (hl : ∀ c ∈ cs, c.length ≤ 255)
    (hfit : 1 + o.first.length + o.rest.length + cs.flatten.length ≤ uploadCapacity) :
    ∃ u ref, UplInv (u.drop .baking) none ∧ Dev.sendChunks cfg env ins cs s a₀ =
      testAnswer (Dev.finishBaking env h o.p2 o.first (o.rest ++ cs.flatten) ref { s with upl := u }).deliver := by
  induction cs generalizing s a₀ o with
  | nil => exact absurd rfl hne
  | cons c cs ih =>
    have hcl : c.length ≤ 255 := hl c (by simp)
    rw [List.flatten_cons, List.length_append] at hfit
    unfold Dev.sendChunks
    rw [if_neg (by rw [h0]; simp)]
    by_cases hcs : cs = []
    · subst hcs
      simp only [if_true]
      have hfeed : feed (some o) ⟨Accessor.baking, 2, 0, c⟩ = (none, some (o.p2, o.first, o.rest ++ c)) := by
        have hr : role 2 = some .closing := by decide
        simp only [feed, hr, hf, true_and]
        rw [if_pos (by omega)]
      obtain ⟨ref, h1, -, h3, -⟩ := (Upl.upload_fed hi ⟨Accessor.baking, 2, 0, c⟩ hcl).some _ _ _ (by rw [hfeed])
      rw [hfeed] at h3
      simp only at h1 h3
      refine ⟨_, ref, h3, ?_⟩
      rw [Dev.processApdu_eq hrun hc hcl]
      simp only [Dev.execWith, Dev.cmdUpload, hco, hap, h1, Dev.sendChunks, List.flatten_cons, List.flatten_nil,
        List.append_nil, Dev.finishBaking]
      generalize testAnswer _ = x
      rcases x with _ | ⟨s, a⟩ <;> rfl
    · rw [if_neg hcs]
      have hr : role 1 = some .middle := by decide
      have hfeed : feed (some o) ⟨Accessor.baking, 1, 0, c⟩ = (some { o with rest := o.rest ++ c }, none) := by
        simp only [feed, hr, hf, true_and]
        rw [if_pos (by omega)]
      obtain ⟨u, hu, he⟩ := Dev.processApdu_acked (ins := ins) (p1 := 1) (p2 := 0) hrun hc hcl hco hap hi
        (by rw [hfeed]) (by simp only [acks, hr, hf, true_and, decide_eq_true_eq]; omega)
      rw [hfeed] at hu
      obtain ⟨u', ref, i1, i2⟩ := ih (s := { s with upl := u }) (o := { o with rest := o.rest ++ c }) hrun hu hf
        (retcode_ok []).1 hcs (fun x hx => hl x (by simp [hx]))
        (by simp only [List.length_append]; omega)
      refine ⟨u', ref, i1, ?_⟩
      rw [he]
      simp only
      rw [i2]
      simp only [List.flatten_cons, List.append_assoc]

theorem Dev.processChunks_complete {cfg : Config} {env : Env} {ins p2 : UInt8} {s : Dev} {h : Bool} {key m : Bytes}
    {o : Option (Session Accessor)} (hrun : s.running = true) (hc : command cfg.build ins = some (.bakerSign h))
    (hco : env.copyF = .done) (hap : env.appendF = .done) (hi : UplInv s.upl o) (hk : key.length ≤ 255) (hm : m ≠ [])
    (hfit : 1 + key.length + m.length ≤ uploadCapacity) :
    ∃ u ref, UplInv (u.drop .baking) none ∧ s.processChunks cfg env ins p2 key m =
      testAnswer (Dev.finishBaking env h p2 key m ref { s with upl := u }).deliver := by
  have hr : role 0 = some .opening := by decide
  have hfeed : feed o ⟨Accessor.baking, 0, p2, key⟩ = (some ⟨.baking, p2, key, []⟩, none) := by
    simp only [feed, hr]
  obtain ⟨u, hu, he⟩ := Dev.processApdu_acked (ins := ins) (p1 := 0) (p2 := p2) hrun hc hk hco hap hi
    (by rw [hfeed]) (by simp only [acks, hr])
  rw [hfeed] at hu
  have hpos : 0 < m.length := List.length_pos_iff.mpr hm
  have hlen : (testChunks m).length = (m.length + 249) / 250 := by simp [testChunks]
  have hcap : uploadCapacity = 8191 := rfl
  have hne : testChunks m ≠ [] := by
    intro h0
    rw [h0] at hlen
    simp only [List.length_nil] at hlen
    omega
  obtain ⟨u', ref, i1, i2⟩ := Dev.sendChunks_complete (ins := ins) (s := { s with upl := u })
    (a₀ := [] ++ statusWord .success) hrun hc hco hap hu rfl (retcode_ok []).1 hne
    (fun c hc => by have := testChunks_short hc; omega)
    (by rw [testChunks_flatten]; simp only [List.length_nil]; omega)
  refine ⟨u', ref, i1, ?_⟩
  rw [testChunks_flatten] at i2
  unfold Dev.processChunks
  simp only
  rw [if_neg (by omega), he]
  exact i2

/-- Reviews play no part in what is not an operation. -/
theorem Dev.bakerSignWith_auto {sh : Shower} {env : Env} {h : Bool} {p2 : UInt8} {first data : Bytes} {ref : MemRef}
    {s : Dev} (hop : data[0]? ≠ some 0x03) :
    s.bakerSignWith sh env h p2 first data ref = s.bakerSign env h p2 first data ref := by
  unfold Dev.bakerSignWith Dev.bakerSign
  congr 1
  funext k
  congr 1
  funext st
  split
  · rfl
  · cases env.cr.blake2b 32 data with
    | none => rfl
    | some digest =>
      simp only
      cases hpre : Preamble.parse data with
      | error x => cases x <;> rfl
      | ok rp =>
        obtain ⟨rem, p⟩ := rp
        obtain ⟨b, rfl, hb⟩ := preamble_parse_ok hpre
        cases p with
        | operation =>
          have hb3 : b = 0x03 := by simpa using hb
          exact absurd (by rw [hb3]; rfl) hop
        | _ => rfl

/-- What the test has brought the app to: the key is authorized, the last message signed was about `last`. -/
structure Flowing (s : Dev) (k : PathAndCurve) (last : Item) (n : Nat) : Prop where
  running : s.running = true
  upl : ∃ o, UplInv s.upl o
  key : s.storedKey = some k
  main : ∃ b, s.main.Holds n (.val b) ∧ (WaterMark.decode b).item = last

/-- The memory, the keys and the hashes of the computer work. -/
structure TestBench (env : Env) (k : PathAndCurve) : Prop where
  works : env.cr.Works
  key : ∃ key acc, IsAccount env.cr k key acc
  sign : ∀ digest, (env.cr.sign k.curve k.path digest).isSome
  main : env.mainF = .done
  test : env.testF = .done
  chain : env.chainF = .done
  keyF : env.keyF = .done
  copy : env.copyF = .done
  append : env.appendF = .done

/-- One message of the test. -/
theorem Flowing.message {cfg : Config} (hb : cfg.build = .baking) {env : Env} {k : PathAndCurve} (he : TestBench env k)
    {s : Dev} {last : Item} {n : Nat} (hs : Flowing s k last n) (hn : n + 1 < 2 ^ 64)
    (hk : 1 ≤ k.path.length ∧ k.path.length ≤ 10) {m : Bytes}
    (hop : m[0]? ≠ some 0x03) (hfit : 1 + k.path.serialize.length + m.length ≤ 8191) :
    (succeeds (s.processChunks cfg env 0xAF (curveCode k.curve) k.path.serialize m) = none ∧
      ¬ ∃ it, consensusItem m = some it ∧ it.level < 2 ^ 31 ∧ Item.lt last it) ∨
    ∃ s' it, succeeds (s.processChunks cfg env 0xAF (curveCode k.curve) k.path.serialize m) = some s' ∧
      consensusItem m = some it ∧ it.level < 2 ^ 31 ∧ Item.lt last it ∧ Flowing s' k it (n + 1) := by
  by_cases hm : m = []
  · subst hm
    refine .inl ⟨by simp [Dev.processChunks, testChunks, succeeds], ?_⟩
    rintro ⟨it, h, -⟩
    cases h
  obtain ⟨hrun, ⟨o, hi⟩, hkey, b, hmain, hlast⟩ := hs
  have hsl : k.path.serialize.length = 1 + 4 * k.path.length := by
    simp only [Path.serialize, List.length_cons]
    have : ∀ l : List UInt32, (l.flatMap be32).length = 4 * l.length := by
      intro l
      induction l with
      | nil => rfl
      | cons a l ih => simp only [List.flatMap_cons, List.length_append, be32_length, ih, List.length_cons]; omega
    rw [this]
    omega
  obtain ⟨hcmd, -⟩ := command_baking_sign (ins := 0xAF) (by decide)
  rw [← hb] at hcmd
  obtain ⟨u, ref, hu, heq⟩ := Dev.processChunks_complete (p2 := curveCode k.curve) hrun hcmd he.copy he.append hi
    (by omega : k.path.serialize.length ≤ 255) hm (by unfold uploadCapacity; omega)
  rw [heq]
  unfold Dev.finishBaking
  rw [Dev.bakerSignWith_auto hop]
  have hread : ({ s with upl := u } : Dev).main.read = .ok b := hmain.read_eq
  rcases Dev.bakerSign_cases env (decide ((0xAF : UInt8) ≠ 0x04)) (curveCode k.curve) k.path.serialize m ref
    { s with upl := u } with hf | ⟨k', digest, hc, hp, hk', hd, ⟨-, hau⟩ | ⟨rem, rfl, -⟩⟩
  · left
    refine ⟨succeeds_fails hf fun st => { st with upl := st.upl.drop .baking }, ?_⟩
    rintro ⟨it, h1, h2, h3⟩
    have hpath : Path.read bip32MaxLength k.path.serialize = .ok k.path := by
      rw [Path.read_ok]
      exact ⟨hk.1, hk.2, by omega, rfl⟩
    obtain ⟨digest, hd⟩ := Option.isSome_iff_exists.mp (he.works.blake2b m)
    obtain ⟨sig, hsg⟩ := Option.isSome_iff_exists.mp (he.sign digest)
    have hcv : Curve.ofByte (curveCode k.curve) = some k.curve := by cases k.curve <;> decide
    rw [Dev.bakerSign_auto (s := { s with upl := u }) hcv hpath hkey hd h1] at hf
    obtain ⟨hout, -⟩ := Dev.autoSign_ok (env := env) (h := decide ((0xAF : UInt8) ≠ 0x04)) (digest := digest)
      (s := { s with upl := u }) hkey h1 hread h2 (by rw [hlast]; exact h3) he.main hsg
    obtain ⟨-, -, ⟨e, -, h⟩ | ⟨f, h⟩⟩ := hf <;> rw [hout] at h <;> cases h
  · rw [hau]
    obtain rfl : k = k' := Option.some.inj (hkey.symm.trans hk')
    by_cases hcond : ∃ it, consensusItem m = some it ∧ it.level < 2 ^ 31 ∧ Item.lt last it
    · right
      obtain ⟨it, h1, h2, h3⟩ := hcond
      obtain ⟨sig, hsg⟩ := Option.isSome_iff_exists.mp (he.sign digest)
      obtain ⟨hout, -⟩ := Dev.autoSign_ok (env := env) (h := decide ((0xAF : UInt8) ≠ 0x04)) (digest := digest)
        (s := { s with upl := u }) hkey h1 hread h2 (by rw [hlast]; exact h3) he.main hsg
      rcases Dev.autoSign_cases env (decide ((0xAF : UInt8) ≠ 0x04)) digest m (specDecide m) { s with upl := u }
        (fun hw e h => specDecide_error h) with hf | ⟨b', w, hb', hw, hf | ⟨hwr, k₁, sig₁, hk₁, hs₁, hres⟩⟩
      · obtain ⟨-, -, ⟨e, -, h⟩ | ⟨f, h⟩⟩ := hf <;> rw [hout] at h <;> cases h
      · obtain ⟨-, -, ⟨e, -, h⟩ | ⟨f, h⟩⟩ := hf <;> rw [hout] at h <;> cases h
      · have hwi : w = WaterMark.ofItem it := by
          unfold specDecide at hw
          simp only [h1] at hw
          split at hw
          · exact (Except.ok.inj hw).symm
          · cases hw
        rw [hres]
        refine ⟨_, it, succeeds_ok _ _ _, h1, h2, h3, hrun, ⟨none, hu⟩, hkey, w.encode, ?_, ?_⟩
        · have hwr' : (s.main.write .done w.encode).2 = .ok := by rw [← he.main]; exact hwr
          obtain ⟨c', g1, g2, -⟩ := hmain.write (f := .done) (b := w.encode) hn
            (by simp only [WaterMark.encode_length, slotSize]) trivial
          obtain rfl : c' = .val w.encode := by
            rcases g2 with ⟨-, g2⟩ | ⟨g2, -⟩
            · exact g2
            · exact absurd hwr' g2
          show (s.main.write env.mainF w.encode).1.Holds _ _
          rw [he.main]
          exact g1
        · rw [WaterMark.decode_encode, hwi, WaterMark.item_ofItem h1]
    · left
      refine ⟨?_, hcond⟩
      rcases Dev.autoSign_cases env (decide ((0xAF : UInt8) ≠ 0x04)) digest m (specDecide m) { s with upl := u }
        (fun hw e h => specDecide_error h) with hf | ⟨b', w, hb', hw, -⟩
      · exact succeeds_fails hf fun st => { st with upl := st.upl.drop .baking }
      · refine absurd ?_ hcond
        obtain rfl : b = b' := ReadRes.ok.inj (hread.symm.trans hb')
        unfold specDecide at hw
        split at hw
        · cases hw
        · rename_i it h1
          split at hw
          · rename_i h2
            exact ⟨it, h1, h2.1, by rw [← hlast]; exact h2.2⟩
          · cases hw
  · exact absurd rfl hop

theorem Flowing.signAll {cfg : Config} (hb : cfg.build = .baking) {env : Env} {k : PathAndCurve} (he : TestBench env k)
    (hk : 1 ≤ k.path.length ∧ k.path.length ≤ 10) {samples : List Bytes} (hop : ∀ m ∈ samples, m[0]? ≠ some 0x03)
    (hfit : ∀ m ∈ samples, 1 + k.path.serialize.length + m.length ≤ 8191) {s : Dev} {last : Item} {n : Nat}
    (hs : Flowing s k last n) (hn : n + samples.length < 2 ^ 64) :
    (Dev.signAll cfg env (curveCode k.curve) k.path.serialize samples s).isSome ↔ Ascending last samples := by
  induction samples generalizing s last n with
  | nil => simp [Dev.signAll, Ascending]
  | cons m ms ih =>
    simp only [List.length_cons] at hn
    rcases hs.message hb he (by omega) hk (hop m (by simp)) (hfit m (by simp)) with ⟨h1, h2⟩ | ⟨s', it, h1, h2, h3, h4, h5⟩
    · simp only [Dev.signAll, h1, Option.bind_none, Ascending, Option.isSome_none, Bool.false_eq_true, false_iff]
      rintro ⟨it, g1, g2, g3, -⟩
      exact h2 ⟨it, g1, g2, g3⟩
    · simp only [Dev.signAll, h1, Option.bind_some, Ascending]
      rw [ih (fun m hm => hop m (by simp [hm])) (fun m hm => hfit m (by simp [hm])) h5 (by omega)]
      refine ⟨fun h => ⟨it, h2, h3, h4, h⟩, ?_⟩
      rintro ⟨it', g1, -, -, g4⟩
      obtain rfl : it = it' := Option.some.inj (h2.symm.trans g1)
      exact g4

theorem Path.newLoop_ok {LEN : Nat} (cs : List UInt32) (i : Nat) (acc : Path) (h : i + cs.length ≤ LEN)
    (h0 : 0 < i + cs.length) : Path.newLoop LEN i acc cs = .ok (acc ++ cs) := by
  induction cs generalizing i acc with
  | nil =>
    simp only [List.length_nil] at h0
    simp only [Path.newLoop, List.append_nil]
    rw [if_neg (by omega)]
  | cons c cs ih =>
    simp only [List.length_cons] at h
    rw [Path.newLoop, if_neg (by omega), if_pos (by omega), ih _ _ (by omega) (by omega)]
    simp

/-- The key that the numbers of a path mean: all are hardened. -/
def testKey (curve : Curve) (path : List UInt32) : PathAndCurve := ⟨curve, path.map (0x80000000 + ·)⟩

theorem preparePath_ok {path : List UInt32} (curve : Curve) (h : 1 ≤ path.length ∧ path.length ≤ 10)
    (hp : ∀ n ∈ path, n < 0x80000000) : preparePath path = some (testKey curve path).path.serialize := by
  unfold preparePath
  rw [if_neg]
  · rw [Path.new, Path.newLoop_ok _ _ _ (by simp only [List.length_map]; omega) (by simp only [List.length_map]; omega)]
    rfl
  · rintro (h1 | ⟨n, h1, h2⟩)
    · omega
    · exact absurd (hp n h1) (by rw [UInt32.not_lt]; exact h2)

/-- C106, the test of a baker's messages, on any path, curve and samples, from any state of the memory: it passes exactly
when the samples are well-formed consensus messages, each about a higher item than the one before. The samples must fit
into the upload buffer, and be no operations: these the mock of the display approves. -/
theorem C106_baking_flow (cfg : Config) (hb : cfg.build = .baking) (new : NewDevice)
    (hu : new.upload.length = uploadCapacity) (es : List (Env × Event)) (hes : ∀ e ∈ es, Kind e.1 e.2 ∧ Good e.1 e.2)
    (s : Dev) (hs : s = ((Dev.factory new).run cfg es).1) (hrun : s.running = true) (env : Env) (curve : Curve)
    (path : List UInt32) (hpath : 1 ≤ path.length ∧ path.length ≤ 10) (hard : ∀ n ∈ path, n < 0x80000000)
    (he : TestBench env (testKey curve path)) (samples : List Bytes) (hop : ∀ m ∈ samples, m[0]? ≠ some 0x03)
    (hfit : ∀ m ∈ samples, 1 + (1 + 4 * path.length) + m.length ≤ 8191)
    (hlen : es.length + 1 + samples.length < 2 ^ 64) :
    (s.bakingFlow cfg env path (curveCode curve) samples).isSome ↔ Ascending ⟨0, 0, 0, 0⟩ samples := by
  have ht := Dev.Takes.of_history (cfg := cfg) hu (fun e h => (hes e h).1) (by omega)
  rw [← hs] at ht
  have hi : UplInv s.upl _ := hs ▸ factory_session (cfg := cfg) hu fun e h => (hes e h).2
  obtain ⟨c1, hc1⟩ := ht.mark .main
  obtain ⟨ck, hck⟩ := ht.key
  obtain ⟨c3, hc3⟩ := ht.mark .chain
  have hk : 1 ≤ (testKey curve path).path.length ∧ (testKey curve path).path.length ≤ 10 := by
    simpa only [testKey, List.length_map] using hpath
  have hser : (testKey curve path).path.serialize.length = 1 + 4 * path.length := by
    simp only [Path.serialize, testKey, List.length_cons]
    have : ∀ l : List UInt32, (l.flatMap be32).length = 4 * l.length := by
      intro l
      induction l with
      | nil => rfl
      | cons a l ih => simp only [List.flatMap_cons, List.length_append, be32_length, ih, List.length_cons]; omega
    rw [this, List.length_map]
    omega
  -- the reset
  have w1 : (s.main.write .done (WaterMark.reset 0 false).encode).2 = .ok := ht.solid.main.takes _
  have w2 : (s.test.write .done (WaterMark.reset 0 false).encode).2 = .ok := ht.solid.test.takes _
  have w3 : (s.chain.write .done (chainIdEncode mainnetChainId)).2 = .ok := ht.solid.chain.takes _
  have hreset : ∃ t c, s.resetState cfg env 0 = some { s with
      main := (s.main.write .done (WaterMark.reset 0 false).encode).1, test := t, chain := c } := by
    have hcmd : command cfg.build 0x06 = some .reset := by rw [hb]; decide
    unfold Dev.resetState
    rw [Dev.processApdu_eq hrun hcmd (by decide)]
    have hx : s.execWith (mockShow env) cfg env .reset 0 0 (some (be32 0)) = s.resetHwm env 0 := rfl
    rw [hx]
    have hchain : s.chain.read = c3.readRes := hc3.read_eq
    have hbr := ht.solid.chain.holds hc3
    cases c3 with
    | broken => exact absurd rfl hbr
    | blank =>
      have hchain : s.chain.read = .err .uninitialized := hchain
      simp only [Dev.resetHwm, Dev.writeMain, Dev.writeTest, Dev.writeChain, he.main, he.test, he.chain, w1, w2, w3,
        Dev.afterWrite, hchain]
      exact ⟨_, _, succeeds_ok _ _ _⟩
    | val b =>
      have hchain : s.chain.read = .ok b := hchain
      simp only [Dev.resetHwm, Dev.writeMain, Dev.writeTest, he.main, he.test, w1, w2,
        Dev.afterWrite, hchain]
      exact ⟨_, _, succeeds_ok _ _ _⟩
  obtain ⟨t, c, hreset⟩ := hreset
  -- the authorization
  have hprep := preparePath_ok curve hpath hard
  obtain ⟨key, acc, hacc⟩ := he.key
  obtain ⟨a, ha, hna, -⟩ := hacc.address he.works
  have wk : (s.key.write .done (keyBytes (some (testKey curve path)))).2 = .ok := ht.solid.key.takes _
  have wk' : (s.key.write .done (testKey curve path).encode).2 = .ok := wk
  have hauth : Dev.authorizeTest cfg env path (curveCode curve) { s with
        main := (s.main.write .done (WaterMark.reset 0 false).encode).1, test := t, chain := c } = some { s with
      main := (s.main.write .done (WaterMark.reset 0 false).encode).1, test := t, chain := c,
      key := (s.key.write .done (keyBytes (some (testKey curve path)))).1 } := by
    have hcmd : command cfg.build 0xA1 = some .authorize := by rw [hb]; decide
    unfold Dev.authorizeTest
    rw [hprep, Option.bind_some, Dev.processApdu_eq (by exact hrun) hcmd (by omega)]
    have hcv : Curve.ofByte (curveCode curve) = some (testKey curve path).curve := by
      simp only [testKey]
      cases curve <;> decide
    have hp : Path.read bip32MaxLength (testKey curve path).path.serialize = .ok (testKey curve path).path := by
      rw [Path.read_ok]
      exact ⟨hk.1, hk.2, by omega, rfl⟩
    simp only [Dev.execWith, Dev.authorizeWith]
    rw [if_neg (by decide), Dev.withPath_ok hcv hp]
    have hna : newAddr env.cr (testKey curve path).curve (testKey curve path).path = some a := hna
    simp only [hna, mockShow, View.accept, hacc.derived, Dev.storeKey, he.keyF, wk', Dev.afterWrite]
    exact succeeds_ok _ _ _
  unfold Dev.bakingFlow
  rw [hreset, Option.bind_some, hauth, Option.bind_some, hprep, Option.bind_some]
  refine Flowing.signAll hb he hk hop (fun m hm => by rw [hser]; exact hfit m hm) (n := es.length + 1)
    ⟨hrun, ⟨_, hi⟩, ?_, (WaterMark.reset 0 false).encode, ?_, ?_⟩ hlen
  · exact (Dev.key_written hck (by omega) wk (fun k' e => by cases e; exact hk) rfl).1
  · obtain ⟨c', g1, g2, -⟩ := hc1.write (f := .done) (b := (WaterMark.reset 0 false).encode) (by omega)
      (by simp only [WaterMark.encode_length, slotSize]) trivial
    obtain rfl : c' = .val (WaterMark.reset 0 false).encode := by
      rcases g2 with ⟨-, g2⟩ | ⟨g2, -⟩
      · exact g2
      · exact absurd w1 g2
    exact g1
  · decide

/-! ### Concrete cases -/

namespace Demo

/-- The path of the tests. -/
def testPath : List UInt32 := [44, 1729, 0, 0]

theorem bench : TestBench fine (testKey .bip32Ed25519 testPath) :=
  ⟨crypto_works, ⟨_, ⟨curveKind .bip32Ed25519, hash 20 (hashedKey .bip32Ed25519 _)⟩, rfl, rfl, rfl⟩, fun _ => rfl, rfl,
    rfl, rfl, rfl, rfl, rfl⟩

/-- Decides whether messages ascend. -/
def ascends (last : Item) : List Bytes → Bool
  | [] => true
  | m :: ms =>
    match consensusItem m with
    | none => false
    | some it => decide (it.level < 2 ^ 31) && decide (Item.lt last it) && ascends it ms

theorem ascends_iff (ms : List Bytes) (last : Item) : ascends last ms = true ↔ Ascending last ms := by
  induction ms generalizing last with
  | nil => simp [ascends, Ascending]
  | cons m ms ih =>
    unfold ascends Ascending
    cases h : consensusItem m with
    | none => simp
    | some it => simp [ih, and_assoc]

theorem setup_good : ∀ e ∈ setup 5, Good e.1 e.2 := by decide +kernel

theorem setup_running : ((Dev.factory newLarge).run bakingApp (setup 5)).1.running = true := by decide +kernel

/-- The samples are no operations and fit. -/
def usable (samples : List Bytes) : Bool :=
  samples.all (fun m => m[0]? != some 0x03 && decide (m.length ≤ 8000)) && decide (samples.length ≤ 100)

theorem flow (s : Dev) (hs : s = ((Dev.factory newLarge).run bakingApp (setup 5)).1) (samples : List Bytes)
    (h : usable samples = true) : (s.bakingFlow bakingApp fine testPath (curveCode .bip32Ed25519) samples).isSome =
      ascends ⟨0, 0, 0, 0⟩ samples := by
  simp only [usable, Bool.and_eq_true, List.all_eq_true, bne_iff_ne, decide_eq_true_eq] at h
  rw [Bool.eq_iff_iff, ascends_iff]
  exact C106_baking_flow bakingApp rfl newLarge (by decide +kernel) (setup 5)
    (fun e he => ⟨setup_kind 5 e he, setup_good e he⟩) s hs (by rw [hs]; exact setup_running) fine .bip32Ed25519 testPath
    (by decide) (by decide) bench samples (fun m hm => (h.1 m hm).1)
    (fun m hm => by have := (h.1 m hm).2; simp only [testPath, List.length_cons, List.length_nil]; omega)
    (by have : (setup 5).length = 8 := rfl
        omega)

/-- What a baker signs within two rounds. -/
def samples : List Bytes :=
  [tbEndorsement 5 0, tbBlock 6 0 ++ List.replicate 200 0, tbPreendorsement 6 0, tbEndorsement 6 0, tbBlock 6 1,
    tbPreendorsement 6 1]

/-- `C106_baking_flow` on an app with a key and watermarks already set: the test passes with these samples. In another
order it fails, and with a sample twice. -/
example (s : Dev) (hs : s = ((Dev.factory newLarge).run bakingApp (setup 5)).1) :
    (s.bakingFlow bakingApp fine testPath (curveCode .bip32Ed25519) samples).isSome = true ∧
    (s.bakingFlow bakingApp fine testPath (curveCode .bip32Ed25519) samples.reverse).isSome = false ∧
    (s.bakingFlow bakingApp fine testPath (curveCode .bip32Ed25519) (samples.take 2 ++ samples.drop 1)).isSome = false :=
  ⟨(flow s hs _ (by decide +kernel)).trans (by decide +kernel), (flow s hs _ (by decide +kernel)).trans
    (by decide +kernel), (flow s hs _ (by decide +kernel)).trans (by decide +kernel)⟩

set_option maxRecDepth 100000 in
/-- `C106_sends`: a message in two chunks is signed; with a second parameter that is no curve the last packet is refused;
an empty message is not sent. -/
example :
    let s := ((Dev.factory newLarge).run bakingApp (setup 5)).1
    ((s.processChunks bakingApp fine 0xAF 0 keyPath (tbBlock 6 0 ++ List.replicate 200 0)).map fun r => retcode r.2) =
      some 0x9000 ∧
    ((s.processChunks bakingApp fine 0xAF 9 keyPath (tbBlock 6 0 ++ List.replicate 200 0)).map fun r => retcode r.2) =
      some 0x6B00 ∧
    ((s.processChunks bakingApp fine 0xAF 9 keyPath []).map fun r => retcode r.2) = none := by
  decide +kernel

end Demo

end Tezos
