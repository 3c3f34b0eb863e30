import Verif.ZemuTests
import Verif.Props.Verdicts
import Mathlib.Data.List.Forall2
/-
C111, the tests: the messages that the tests on an emulated device build, and what these tests find out.
-/
namespace Tezos
open Spec

theorem put_some {w n : Nat} {buf : Bytes} (h1 : n < 256 ^ w) (h2 : buf.length + w ≤ 100) :
    put w n buf = some (buf ++ beEnc w n) := if_pos ⟨h1, h2⟩

theorem put_fails {w n : Nat} {buf : Bytes} (h : ¬ n < 256 ^ w) : put w n buf = none := if_neg fun h' => h h'.1

theorem copyTo_fits {x buf : Bytes} (h : buf.length + x.length ≤ 100) : copyTo x buf = buf ++ x := by
  unfold copyTo
  rw [List.take_of_length_le (by omega)]

/-- A number is read back where it was written. -/
theorem u32At_written {a c : Bytes} {n o : Nat} (hn : n < 2 ^ 32) (ha : a.length = o) :
    u32At (a ++ (beEnc 4 n ++ c)) o = n := by
  unfold u32At slice
  rw [List.drop_left' ha, List.take_left' (by simp [beEnc_length]), beDec_beEnc_of_lt (by omega)]

theorem getElem?_written {a c : Bytes} {x : UInt8} {o : Nat} (ha : a.length = o) : (a ++ x :: c)[o]? = some x := by
  subst ha
  simp

/-- What a message of the builder for endorsements is about. -/
def BlobType.item (type : BlobType) (level round : Nat) : Item :=
  match type with
  | .emmy => ⟨0, level, 0, 2⟩
  | .preendorsement => ⟨1, level, round, 1⟩
  | .endorsement => ⟨1, level, round, 2⟩

/-- The byte in front of it. -/
def BlobType.byte : BlobType → UInt8
  | .emmy => 0x02
  | .preendorsement => 0x12
  | .endorsement => 0x13

/-- C111, endorsements: the builder makes the message of this type, level and round that it is asked for, the client puts
the right byte in front of it, and the message is well-formed. -/
theorem C111_endorsement (chain level round : Nat) (hc : chain < 2 ^ 32) (hl : level < 2 ^ 32) (hr : round < 2 ^ 32)
    (branch : Bytes) (hb : branch.length = 32) (type : BlobType) :
    ∃ m, getEndorsementInfo chain branch level type (some round) = some m ∧ m.length ≤ 79 ∧
      BakerMessage.magic .endorsement m = some type.byte ∧
      consensusItem (type.byte :: m) = some (type.item level round) := by
  have e0 : put 4 chain [] = some (beEnc 4 chain) := put_some (by omega) (by simp)
  have e1 : copyTo branch (beEnc 4 chain) = beEnc 4 chain ++ branch := copyTo_fits (by simp [beEnc_length, hb])
  have l1 : (beEnc 4 chain ++ branch).length = 36 := by simp [beEnc_length, hb]
  have tag : ∀ x : Nat, x < 256 → put 1 x (beEnc 4 chain ++ branch) = some (beEnc 4 chain ++ branch ++ beEnc 1 x) :=
    fun x hx => put_some (by omega) (by omega)
  have b1 : ∀ x : Nat, x < 256 → beEnc 1 x = [UInt8.ofNat x] := by
    intro x hx
    simp [beEnc]
  have long : ∀ (t : UInt8), ∃ m, m = beEnc 4 chain ++ branch ++ [t] ++ beEnc 2 0 ++ beEnc 4 level ++ beEnc 4 round ++
      List.replicate 32 0 ∧ m.length = 79 ∧ m[36]? = some t ∧
      ∀ b : UInt8, u32At (b :: m) 40 = level ∧ u32At (b :: m) 44 = round := by
    intro t
    refine ⟨_, rfl, by simp [beEnc_length, hb], ?_, fun b => ⟨?_, ?_⟩⟩
    · have := getElem?_written (a := beEnc 4 chain ++ branch) (x := t)
        (c := beEnc 2 0 ++ beEnc 4 level ++ beEnc 4 round ++ List.replicate 32 0) l1
      simpa only [List.append_assoc, List.cons_append, List.nil_append] using this
    · have := u32At_written (a := b :: (beEnc 4 chain ++ branch ++ [t] ++ beEnc 2 0)) (n := level) (o := 40)
        (c := beEnc 4 round ++ List.replicate 32 0) hl (by simp [beEnc_length, hb])
      simpa only [List.append_assoc, List.cons_append] using this
    · have := u32At_written (a := b :: (beEnc 4 chain ++ branch ++ [t] ++ beEnc 2 0 ++ beEnc 4 level)) (n := round)
        (o := 44) (c := List.replicate 32 0) hr (by simp [beEnc_length, hb])
      simpa only [List.append_assoc, List.cons_append] using this
  have built : ∀ (t : Nat), t < 256 → (do
      let r ← put 1 t (beEnc 4 chain ++ branch)
      let r ← put 2 0 r
      let r ← put 4 level r
      let r ← put 4 (← some round) r
      return copyTo (List.replicate 32 0) r) = some (beEnc 4 chain ++ branch ++ [UInt8.ofNat t] ++ beEnc 2 0 ++
        beEnc 4 level ++ beEnc 4 round ++ List.replicate 32 0) := by
    intro t ht
    rw [tag t ht, b1 t ht]
    simp only [Option.bind_eq_bind, Option.bind_some]
    rw [put_some (by omega) (by simp only [List.length_append, List.length_cons, List.length_nil, l1]; omega)]
    simp only [Option.bind_some]
    rw [put_some (by omega) (by simp [beEnc_length, hb])]
    simp only [Option.bind_some]
    rw [put_some (by omega) (by simp [beEnc_length, hb])]
    simp only [Option.bind_some, Option.pure_def, Option.some.injEq]
    exact copyTo_fits (by simp [beEnc_length, hb])
  cases type with
  | emmy =>
    refine ⟨beEnc 4 chain ++ branch ++ [0] ++ beEnc 4 level, ?_, by simp [beEnc_length, hb], ?_, ?_⟩
    · unfold getEndorsementInfo
      simp only [e0, e1, Option.bind_eq_bind, Option.bind_some, tag 0 (by omega), b1 0 (by omega)]
      rw [put_some (by omega) (by simp [beEnc_length, hb])]
      rfl
    · have := getElem?_written (a := beEnc 4 chain ++ branch) (x := 0) (c := beEnc 4 level) l1
      simp only [BakerMessage.magic, List.append_assoc, List.singleton_append] at this ⊢
      rw [this]
      rfl
    · have h1 : ((0x02 : UInt8) :: (beEnc 4 chain ++ branch ++ [0] ++ beEnc 4 level))[37]? = some 0 := by
        have := getElem?_written (a := (0x02 : UInt8) :: (beEnc 4 chain ++ branch)) (x := 0) (c := beEnc 4 level) (o := 37)
          (by simp [beEnc_length, hb])
        simpa only [List.append_assoc, List.cons_append, List.nil_append] using this
      have h2 : u32At ((0x02 : UInt8) :: (beEnc 4 chain ++ branch ++ [0] ++ beEnc 4 level)) 38 = level := by
        have := u32At_written (a := (0x02 : UInt8) :: (beEnc 4 chain ++ branch ++ [0])) (n := level) (o := 38)
          (c := []) hl (by simp [beEnc_length, hb])
        simpa only [List.append_assoc, List.cons_append, List.append_nil] using this
      have h3 : 42 ≤ ((0x02 : UInt8) :: (beEnc 4 chain ++ branch ++ [0] ++ beEnc 4 level)).length := by
        simp [beEnc_length, hb]
      unfold consensusItem BlobType.byte
      simp only [List.getElem?_cons_zero]
      rw [if_neg (by decide), if_neg (by decide), if_pos trivial, if_pos ⟨h3, h1⟩, h2]
      rfl
  | preendorsement =>
    obtain ⟨m, hm, hlen, htag, hat⟩ := long 20
    refine ⟨m, ?_, by omega, ?_, ?_⟩
    · rw [hm]
      have := built 20 (by omega)
      unfold getEndorsementInfo
      simp only [e0, e1, Option.bind_eq_bind, Option.bind_some] at this ⊢
      exact this
    · simp only [BakerMessage.magic, Nat.reduceAdd, htag]
      rfl
    · unfold consensusItem BlobType.byte
      simp only [List.getElem?_cons_zero]
      rw [if_neg (by decide), if_neg (by decide), if_neg (by decide), if_pos trivial,
        if_pos ⟨by simp [hlen], by rw [List.getElem?_cons_succ]; exact htag⟩, (hat _).1, (hat _).2]
      rfl
  | endorsement =>
    obtain ⟨m, hm, hlen, htag, hat⟩ := long 21
    refine ⟨m, ?_, by omega, ?_, ?_⟩
    · rw [hm]
      have := built 21 (by omega)
      unfold getEndorsementInfo
      simp only [e0, e1, Option.bind_eq_bind, Option.bind_some] at this ⊢
      exact this
    · simp only [BakerMessage.magic, Nat.reduceAdd, htag]
      rfl
    · unfold consensusItem BlobType.byte
      simp only [List.getElem?_cons_zero]
      rw [if_neg (by decide), if_neg (by decide), if_neg (by decide), if_neg (by decide), if_pos trivial,
        if_pos ⟨by simp [hlen], by rw [List.getElem?_cons_succ]; exact htag⟩, (hat _).1, (hat _).2]
      rfl

/-- The byte in front of a block, and what it is about: without a round, or with the round zero, it is an Emmy block. -/
def blockByte : Option Nat → UInt8
  | none | some 0 => 0x01
  | some _ => 0x11

def blockItem (level : Nat) : Option Nat → Item
  | none | some 0 => ⟨0, level, 0, 0⟩
  | some r => ⟨1, level, r, 0⟩

/-- C111, blocks: the builder makes a well-formed block of this level, and the client puts the right byte in front of it. It
is a Tenderbake block of this round if there is one and it is not zero, and an Emmy block otherwise. -/
theorem C111_block (chain level : Nat) (hc : chain < 2 ^ 32) (hl : level < 2 ^ 32) (round : Option Nat)
    (hr : ∀ r, round = some r → r < 2 ^ 32) :
    ∃ m, getBlocklevelInfo chain level round = some m ∧ m.length ≤ 95 ∧
      BakerMessage.magic .blocklevel m = some (blockByte round) ∧
      consensusItem (blockByte round :: m) = some (blockItem level round) := by
  generalize hpre : beEnc 4 chain ++ beEnc 4 level ++ beEnc 1 42 ++ List.replicate 32 0 ++ beEnc 8 0 ++ beEnc 1 0 ++
    List.replicate 32 0 = pre
  have lpre : pre.length = 82 := by rw [← hpre]; simp [beEnc_length]
  have key : ∀ fitness, blockFitness round = some fitness → fitness.length ≤ 9 →
      getBlocklevelInfo chain level round = some (pre ++ beEnc 4 fitness.length ++ fitness) := by
    intro fitness hf hfl
    have hp : put 4 fitness.length pre = some (pre ++ beEnc 4 fitness.length) := put_some (by omega) (by omega)
    have hcp : copyTo fitness (pre ++ beEnc 4 fitness.length) = pre ++ beEnc 4 fitness.length ++ fitness :=
      copyTo_fits (by simp [beEnc_length]; omega)
    unfold getBlocklevelInfo
    rw [put_some (by omega) (by simp)]
    simp only [Option.bind_eq_bind, Option.bind_some, List.nil_append]
    rw [put_some (by omega) (by simp [beEnc_length])]
    simp only [Option.bind_some]
    rw [put_some (by omega) (by simp [beEnc_length])]
    simp only [Option.bind_some]
    rw [copyTo_fits (by simp [beEnc_length]), put_some (by omega) (by simp [beEnc_length])]
    simp only [Option.bind_some]
    rw [put_some (by omega) (by simp [beEnc_length])]
    simp only [Option.bind_some]
    rw [copyTo_fits (by simp [beEnc_length]), hpre, hf]
    simp only [Option.bind_some, hp, Option.pure_def, hcp]
  have hlev : ∀ (b : UInt8) (rest : Bytes), u32At (b :: (pre ++ rest)) 5 = level := by
    intro b rest
    rw [← hpre]
    have := u32At_written (a := b :: beEnc 4 chain) (n := level) (o := 5) (c := beEnc 1 42 ++ List.replicate 32 0 ++
      beEnc 8 0 ++ beEnc 1 0 ++ List.replicate 32 0 ++ rest) hl (by simp [beEnc_length])
    simpa only [List.append_assoc, List.cons_append] using this
  have hfl : ∀ (b : UInt8) (n : Nat) (rest : Bytes), n < 2 ^ 32 → u32At (b :: (pre ++ beEnc 4 n ++ rest)) 83 = n := by
    intro b n rest hn
    have := u32At_written (a := b :: pre) (n := n) (o := 83) (c := rest) hn (by simp [lpre])
    simpa only [List.append_assoc, List.cons_append] using this
  have emmy : round = none ∨ round = some 0 → ∃ m, getBlocklevelInfo chain level round = some m ∧ m.length ≤ 95 ∧
      BakerMessage.magic .blocklevel m = some 0x01 ∧ consensusItem (0x01 :: m) = some ⟨0, level, 0, 0⟩ := by
    intro h
    have hf : blockFitness round = some (List.replicate 5 1) := by rcases h with rfl | rfl <;> rfl
    refine ⟨_, key _ hf (by simp), by simp [beEnc_length, lpre], ?_, ?_⟩
    · have h90 : (pre ++ beEnc 4 (List.replicate 5 (1 : UInt8)).length ++ List.replicate 5 1)[90]? = some 1 := by
        rw [List.getElem?_append_right (by simp [beEnc_length, lpre])]
        simp [beEnc_length, lpre]
      simp only [BakerMessage.magic, Nat.reduceAdd, h90]
    · have h91 : ((0x01 : UInt8) :: (pre ++ beEnc 4 (List.replicate 5 (1 : UInt8)).length ++ List.replicate 5 1))[91]? =
          some 1 := by
        rw [List.getElem?_cons_succ, List.getElem?_append_right (by simp [beEnc_length, lpre])]
        simp [beEnc_length, lpre]
      unfold consensusItem
      simp only [List.getElem?_cons_zero]
      rw [if_pos trivial, hfl _ _ _ (by simp), if_pos ⟨by simp [beEnc_length, lpre], by simp, by simp [beEnc_length, lpre],
        .inr h91⟩, List.append_assoc, hlev]
  cases round with
  | none => exact emmy (.inl rfl)
  | some r =>
    cases r with
    | zero => exact emmy (.inr rfl)
    | succ r =>
      have hr' := hr _ rfl
      have hf : blockFitness (some (r + 1)) = some (List.replicate 5 2 ++ beEnc 4 (r + 1)) := by
        simp only [blockFitness]
        rw [if_pos (by omega)]
      have hlen : (List.replicate 5 (2 : UInt8) ++ beEnc 4 (r + 1)).length = 9 := by simp [beEnc_length]
      refine ⟨_, key _ hf (by omega), by simp [beEnc_length, lpre], ?_, ?_⟩
      · have h90 : (pre ++ beEnc 4 (List.replicate 5 (2 : UInt8) ++ beEnc 4 (r + 1)).length ++
            (List.replicate 5 2 ++ beEnc 4 (r + 1)))[90]? = some 2 := by
          rw [List.getElem?_append_right (by simp [beEnc_length, lpre]),
            List.getElem?_append_left (by simp [beEnc_length, lpre])]
          simp [beEnc_length, lpre]
        simp only [BakerMessage.magic, Nat.reduceAdd, h90]
        rfl
      · have h91 : ((0x11 : UInt8) :: (pre ++ beEnc 4 (List.replicate 5 (2 : UInt8) ++ beEnc 4 (r + 1)).length ++
            (List.replicate 5 2 ++ beEnc 4 (r + 1))))[91]? = some 2 := by
          rw [List.getElem?_cons_succ, List.getElem?_append_right (by simp [beEnc_length, lpre]),
            List.getElem?_append_left (by simp [beEnc_length, lpre])]
          simp [beEnc_length, lpre]
        have hround : u32At ((0x11 : UInt8) :: (pre ++ beEnc 4 (List.replicate 5 (2 : UInt8) ++ beEnc 4 (r + 1)).length ++
            (List.replicate 5 2 ++ beEnc 4 (r + 1)))) 92 = r + 1 := by
          have := u32At_written (a := (0x11 : UInt8) :: (pre ++ beEnc 4 (List.replicate 5 (2 : UInt8) ++
            beEnc 4 (r + 1)).length ++ List.replicate 5 2)) (n := r + 1) (o := 92) (c := []) hr'
            (by simp [beEnc_length, lpre])
          simpa only [List.append_assoc, List.cons_append, List.append_nil] using this
        unfold consensusItem blockByte
        simp only [List.getElem?_cons_zero]
        rw [if_neg (by decide), if_pos trivial, hfl _ _ _ (by omega), hlen]
        rw [hlen] at hround h91
        rw [if_pos ⟨by simp [beEnc_length, lpre], by omega, by simp [beEnc_length, lpre], h91⟩, hround, List.append_assoc,
          hlev]
        rfl

/-- The call is the one of the test. -/
structure ZemuCall.Made (x : BakerCall) (t : ZemuCall) : Prop where
  kind : x.kind = t.kind
  built : t.built = some x.message

/-- The test has got what it expects. -/
def passes (rs : List SignResponse) (ts : List ZemuCall) : Prop :=
  rs.map (fun r => decide (r.returnCode = 0x9000)) = ts.map ZemuCall.ok

theorem BakerCall.Proper.block {js : Js} {path : Bytes} {curve : UInt8} {k : PathAndCurve} {x : BakerCall}
    (h : x.Proper js path curve k) {level : Nat} (hl : level < 2 ^ 31) {round : Option Nat}
    (hr : ∀ r, round = some r → r < 2 ^ 32) {ok : Bool}
    (hm : ZemuCall.Made x ⟨.blocklevel, getBlocklevelInfo 0 level round, ok⟩) : x.item = blockItem level round := by
  obtain ⟨m, h1, -, h2, h3⟩ := C111_block 0 level (by omega) (by omega) round hr
  obtain ⟨b, h4, h5, -⟩ := h.message
  obtain ⟨hk, hb⟩ := hm
  simp only at hk hb
  rw [h1] at hb
  cases hb
  rw [hk, h2] at h4
  cases h4
  exact Option.some.inj (h5.symm.trans h3)

theorem BakerCall.Proper.endorsement {js : Js} {path : Bytes} {curve : UInt8} {k : PathAndCurve} {x : BakerCall}
    (h : x.Proper js path curve k) {level round : Nat} (hl : level < 2 ^ 31) (hr : round < 2 ^ 32) {type : BlobType}
    {ok : Bool} (hm : ZemuCall.Made x ⟨.endorsement, getEndorsementInfo 0 noBranch level type (some round), ok⟩) :
    x.item = type.item level round := by
  obtain ⟨m, h1, -, h2, h3⟩ := C111_endorsement 0 level round (by omega) (by omega) hr noBranch (by decide) type
  obtain ⟨b, h4, h5, -⟩ := h.message
  obtain ⟨hk, hb⟩ := hm
  simp only at hk hb
  rw [h1] at hb
  cases hb
  rw [hk, h2] at h4
  cases h4
  exact Option.some.inj (h5.symm.trans h3)

/-- For the Emmy endorsement it makes no difference whether there is a round. -/
theorem emmy_no_round (chain : Nat) (branch : Bytes) (level : Nat) (r : Option Nat) :
    getEndorsementInfo chain branch level .emmy r = getEndorsementInfo chain branch level .emmy (some 0) := rfl

theorem BakerCall.Proper.emmy {js : Js} {path : Bytes} {curve : UInt8} {k : PathAndCurve} {x : BakerCall}
    (h : x.Proper js path curve k) {level : Nat} (hl : level < 2 ^ 31) {ok : Bool}
    (hm : ZemuCall.Made x ⟨.endorsement, getEndorsementInfo 0 noBranch level .emmy none, ok⟩) :
    x.item = ⟨0, level, 0, 2⟩ :=
  h.endorsement (round := 0) (type := .emmy) hl (by omega) (by rw [← emmy_no_round 0 noBranch level none]; exact hm)

/-- The tests of the repository, for a level. -/
def bakingTests (level : Nat) : List (List ZemuCall) :=
  [emmyEndorsementTest level, emmyBlockTest level, emmyBothTest level, tenderbakeEndorsementTest level,
    tenderbakeBlockTest level, tenderbakeBothTest level]

/-- What the calls of a test are about. -/
theorem bakingTests_items {js : Js} {path : Bytes} {curve : UInt8} {k : PathAndCurve} {level : Nat} (hl : level < 2 ^ 31)
    {ts : List ZemuCall} (hts : ts ∈ bakingTests level) {xs : List BakerCall}
    (hxs : ∀ x ∈ xs, x.Proper js path curve k) (hmade : List.Forall₂ ZemuCall.Made xs ts) :
    (xs.map BakerCall.item, ts.map ZemuCall.ok) ∈ [
      ([(⟨0, level, 0, 2⟩ : Item)], [true]),
      ([⟨0, level, 0, 0⟩], [true]),
      ([⟨0, level, 0, 0⟩, ⟨0, level, 0, 0⟩, ⟨0, level, 0, 2⟩], [true, false, true]),
      ([⟨1, level, 0, 2⟩], [true]),
      ([⟨0, level, 0, 0⟩], [true]),
      ([⟨0, level, 0, 0⟩, ⟨0, level, 0, 0⟩, ⟨1, level, 1, 0⟩, ⟨1, level, 1, 1⟩, ⟨1, level, 1, 2⟩],
        [true, false, true, true, true])] := by
  have h0 : ∀ r : Nat, (none : Option Nat) = some r → r < 2 ^ 32 := by simp
  have h1 : ∀ n : Nat, n < 2 → ∀ r : Nat, some n = some r → r < 2 ^ 32 := by
    intro n hn r h
    cases h
    omega
  simp only [bakingTests, List.mem_cons, List.not_mem_nil, or_false] at hts
  rcases hts with rfl | rfl | rfl | rfl | rfl | rfl
  · obtain _ | ⟨m1, hmade⟩ := hmade
    obtain _ | _ := hmade
    have e1 := (hxs _ (by simp)).emmy hl m1
    simp [e1, emmyEndorsementTest]
  · obtain _ | ⟨m1, hmade⟩ := hmade
    obtain _ | _ := hmade
    have e1 := (hxs _ (by simp)).block hl h0 m1
    simp [e1, blockItem, emmyBlockTest]
  · obtain _ | ⟨m1, hmade⟩ := hmade
    obtain _ | ⟨m2, hmade⟩ := hmade
    obtain _ | ⟨m3, hmade⟩ := hmade
    obtain _ | _ := hmade
    have e1 := (hxs _ (by simp)).block hl h0 m1
    have e2 := (hxs _ (by simp)).block hl h0 m2
    have e3 := (hxs _ (by simp)).emmy hl m3
    simp [e1, e2, e3, blockItem, emmyBothTest]
  · obtain _ | ⟨m1, hmade⟩ := hmade
    obtain _ | _ := hmade
    have e1 := (hxs _ (by simp)).endorsement hl (by omega) m1
    simp [e1, BlobType.item, tenderbakeEndorsementTest]
  · obtain _ | ⟨m1, hmade⟩ := hmade
    obtain _ | _ := hmade
    have e1 := (hxs _ (by simp)).block hl (h1 0 (by omega)) m1
    simp [e1, blockItem, tenderbakeBlockTest]
  · obtain _ | ⟨m1, hmade⟩ := hmade
    obtain _ | ⟨m2, hmade⟩ := hmade
    obtain _ | ⟨m3, hmade⟩ := hmade
    obtain _ | ⟨m4, hmade⟩ := hmade
    obtain _ | ⟨m5, hmade⟩ := hmade
    obtain _ | _ := hmade
    have e1 := (hxs _ (by simp)).block hl (h1 0 (by omega)) m1
    have e2 := (hxs _ (by simp)).block hl (h1 0 (by omega)) m2
    have e3 := (hxs _ (by simp)).block hl (h1 1 (by omega)) m3
    have e4 := (hxs _ (by simp)).endorsement hl (by omega) m4
    have e5 := (hxs _ (by simp)).endorsement hl (by omega) m5
    simp [e1, e2, e3, e4, e5, blockItem, BlobType.item, tenderbakeBothTest]

/-- **C111, the tests.** After the watermark was reset to the level zero and the key authorized, every baking test of the
repository passes, at its level and at every other level from 1 to `2 ^ 31 - 1`. -/
theorem C111_tests (cfg : Config) (hb : cfg.build = .baking) (new : NewDevice)
    (hu : new.upload.length = uploadCapacity) (es : List (Env × Event)) (hes : ∀ e ∈ es, Kind e.1 e.2 ∧ Good e.1 e.2)
    (past mid : List Moment) (m0 : Moment) (h : (Dev.factory new).trace cfg es = past ++ m0 :: mid)
    (hset : SetsLevel cfg m0 0) (hcl : ∀ it, Clear cfg past m0 mid it)
    (s : Dev) (hs : s = ((Dev.factory new).run cfg es).1) (hrun : s.running = true) (js : Js) (hjs : js.ReadsDecimal)
    (path : Bytes) (curve : UInt8) (k : PathAndCurve) (hk : NamesKey path curve k) (hkey : s.storedKey = some k)
    (level : Nat) (hl : 0 < level ∧ level < 2 ^ 31) (ts : List ZemuCall) (hts : ts ∈ bakingTests level)
    (xs : List BakerCall) (hxs : ∀ x ∈ xs, x.Proper js path curve k) (hmade : List.Forall₂ ZemuCall.Made xs ts)
    (hlen : es.length + xs.length < 2 ^ 64) : ∃ rs, s.Returns cfg xs rs ∧ passes rs ts := by
  refine ⟨_, C111_from_level cfg hb new hu es hes past mid m0 h 0 hset hcl s hs hrun js hjs path curve k hk hkey xs hxs hlen,
    ?_⟩
  have hres : ∀ (xs : List BakerCall) (vs : List Bool), vs.length = xs.length →
      (List.zipWith BakerCall.result xs vs).map (fun r => decide (r.returnCode = 0x9000)) = vs := by
    intro xs
    induction xs with
    | nil => intro vs hv; rw [List.eq_nil_of_length_eq_zero hv]; rfl
    | cons x xs ih =>
      intro vs hv
      cases vs with
      | nil => cases hv
      | cons v vs =>
        simp only [List.zipWith_cons_cons, List.map_cons, ih vs (by simpa using hv)]
        cases v <;> simp [BakerCall.result]
  have hlen' : ∀ (its : List Item) (last : Item), (verdicts last its).length = its.length := by
    intro its
    induction its with
    | nil => intro last; rfl
    | cons it its ih => intro last; unfold verdicts; split <;> simp [ih]
  unfold passes
  rw [hres xs _ (by rw [hlen', List.length_map])]
  have hi := bakingTests_items hl.2 hts hxs hmade
  generalize xs.map BakerCall.item = its at hi
  generalize ts.map ZemuCall.ok = oks at hi
  obtain ⟨h0, h1⟩ := hl
  have h2 : level < 2147483648 := h1
  simp only [List.mem_cons, List.not_mem_nil, or_false, Prod.mk.injEq] at hi
  rcases hi with ⟨rfl, rfl⟩ | ⟨rfl, rfl⟩ | ⟨rfl, rfl⟩ | ⟨rfl, rfl⟩ | ⟨rfl, rfl⟩ | ⟨rfl, rfl⟩ <;>
    simp [verdicts, Item.lt, h0, h2]

/-- **C111, what the tests miss.** A round of zero is not sent: the tests called Tenderbake that give it send the Emmy block
of the other tests, with the byte and the item of an Emmy block. -/
theorem C111_round_zero (chain level : Nat) (hc : chain < 2 ^ 32) (hl : level < 2 ^ 32) :
    ∃ m, getBlocklevelInfo chain level (some 0) = some m ∧ getBlocklevelInfo chain level none = some m ∧
      BakerMessage.magic .blocklevel m = some 0x01 ∧ consensusItem (0x01 :: m) = some ⟨0, level, 0, 0⟩ := by
  obtain ⟨m, h1, -, h2, h3⟩ := C111_block chain level hc hl none (by simp)
  exact ⟨m, h1, h1, h2, h3⟩

/-- The rule of a device that does not remember Tenderbake messages: it signs all of them. -/
def signsAllTenderbake (last it : Item) : Bool :=
  decide (it.family = 1) || decide (it.level < 2 ^ 31) && decide (Item.lt last it)

/-- So no test asks for something a second time that is Tenderbake: a device that signs every Tenderbake message passes all
tests, though it signs two blocks, two preendorsements and two endorsements of any level and round. Had the builder sent the
round zero, the test would have found out. -/
theorem C111_tests_miss (js : Js) (path : Bytes) (curve : UInt8) (k : PathAndCurve) (level : Nat)
    (hl : 0 < level ∧ level < 2 ^ 31) :
    (∀ ts ∈ bakingTests level, ∀ xs : List BakerCall, (∀ x ∈ xs, x.Proper js path curve k) →
      List.Forall₂ ZemuCall.Made xs ts →
      verdictsBy signsAllTenderbake ⟨0, 0, 0, 0⟩ (xs.map BakerCall.item) = ts.map ZemuCall.ok) ∧
    (∀ last it : Item, it.family = 1 → verdictsBy signsAllTenderbake last [it, it] = [true, true]) ∧
    (verdictsBy signsAllTenderbake ⟨0, 0, 0, 0⟩ [⟨1, level, 0, 0⟩, ⟨1, level, 0, 0⟩, ⟨1, level, 1, 0⟩, ⟨1, level, 1, 1⟩,
      ⟨1, level, 1, 2⟩] ≠ (tenderbakeBothTest level).map ZemuCall.ok) := by
  obtain ⟨h0, h1⟩ := hl
  have h2 : level < 2147483648 := h1
  refine ⟨fun ts hts xs hxs hmade => ?_, fun last it hf => ?_, ?_⟩
  · have hi := bakingTests_items h1 hts hxs hmade
    generalize xs.map BakerCall.item = its at hi
    generalize ts.map ZemuCall.ok = oks at hi
    simp only [List.mem_cons, List.not_mem_nil, or_false, Prod.mk.injEq] at hi
    rcases hi with ⟨rfl, rfl⟩ | ⟨rfl, rfl⟩ | ⟨rfl, rfl⟩ | ⟨rfl, rfl⟩ | ⟨rfl, rfl⟩ | ⟨rfl, rfl⟩ <;>
      simp [verdictsBy, signsAllTenderbake, Item.lt, h0, h2]
  · simp [verdictsBy, signsAllTenderbake, hf]
  · simp [verdictsBy, signsAllTenderbake, tenderbakeBothTest]

/-! ### Concrete cases -/

namespace Demo

/-- A call of a test, as it is sent to the device of the scenarios. -/
def made (t : ZemuCall) : BakerCall :=
  let m := t.built.getD []
  let call := (signBaker js pathText 0 m t.kind).getD (.done ⟨0, none⟩)
  let evs := call.sent.map fun x => apdu x.1 x.2.1 x.2.2.1 x.2.2.2
  let b := (t.kind.magic m).getD 0
  ⟨t.kind, m, call, ok evs.dropLast, fine, evs.getLastD .relaunch, (consensusItem (b :: m)).getD ⟨0, 0, 0, 0⟩,
    hash 32 (b :: m), (crypto.sign key.curve key.path (hash 32 (b :: m))).getD []⟩

/-- What `made` needs. -/
def usableCall (t : ZemuCall) : Bool :=
  let m := t.built.getD []
  let call := (signBaker js pathText 0 m t.kind).getD (.done ⟨0, none⟩)
  let b := (t.kind.magic m).getD 0
  t.built.isSome && (t.kind.magic m).isSome && (consensusItem (b :: m)).isSome && decide (m.length ≤ 8172) &&
    !call.sent.isEmpty && call.sent.all (fun x => decide (x.2.2.2.length ≤ 255))

theorem getD_isSome {α : Type} {o : Option α} (h : o.isSome = true) (d : α) : o = some (o.getD d) := by
  cases o with
  | none => cases h
  | some x => rfl

theorem made_made {t : ZemuCall} (h : usableCall t = true) : ZemuCall.Made (made t) t := by
  simp only [usableCall, Bool.and_eq_true] at h
  exact ⟨rfl, getD_isSome h.1.1.1.1.1 []⟩

theorem made_proper {t : ZemuCall} (h : usableCall t = true) : (made t).Proper js pathText 0 key := by
  simp only [usableCall, Bool.and_eq_true, decide_eq_true_eq, List.all_eq_true, Bool.not_eq_true'] at h
  obtain ⟨⟨⟨⟨⟨h1, h2⟩, h3⟩, h4⟩, h5⟩, h6⟩ := h
  have hs : (signBaker js pathText 0 (t.built.getD []) t.kind).isSome = true := by
    unfold signBaker
    rw [getD_isSome h2 0]
    rfl
  refine ⟨getD_isSome hs _, ⟨?_, ?_, rfl, rfl⟩,
    ⟨_, getD_isSome h2 0, getD_isSome h3 _, rfl⟩, h4, ?_, crypto_sized, rfl⟩
  · have := Sends.of_sent (call := (made t).call) h6
    refine cast (congrArg _ ?_) this
    simp only [made, ok, List.map_map]
    generalize hl : List.map (fun x => apdu x.1 x.2.1 x.2.2.1 x.2.2.2)
      ((signBaker js pathText 0 (t.built.getD []) t.kind).getD (.done ⟨0, none⟩)).sent = l
    have hne : l ≠ [] := by
      rw [← hl]
      intro h0
      rw [List.map_eq_nil_iff] at h0
      rw [h0] at h5
      cases h5
    rw [show (Prod.snd ∘ fun x => ((fine, x) : Env × Event)) = id from rfl, List.map_id, List.getLastD_eq_getLast?,
      List.getLast?_eq_getLast_of_ne_nil hne]
    exact (List.dropLast_append_getLast hne).symm
  · intro e he
    obtain ⟨x, -, rfl⟩ := List.mem_map.mp he
    exact ⟨rfl, rfl⟩
  · rfl

/-- The watermark is reset to zero and the key authorized. -/
def prepare : List (Env × Event) := reset 0 ++ authorize

/-- The reset. -/
def resetting : Moment :=
  let ev := apdu 0x06 0 0 (be32 0)
  ⟨Dev.factory newSmall, fine, ev, ((Dev.factory newSmall).step bakingApp fine ev).2⟩

theorem sets_zero : SetsLevel bakingApp resetting 0 := by
  obtain ⟨buf, h1, -, -, h2⟩ := (apdu_carries 0x06 0 0 (be32 0) (by decide)).received (cfg := bakingApp)
    (s := Dev.factory newSmall) (c := .reset) (by decide) (by decide)
  exact .reset buf _ _ h1 h2 (by decide) (by decide +kernel)

set_option maxRecDepth 100000 in
/-- `C111_tests` for the Tenderbake test with both kinds of messages, at the level 5. -/
example : ∃ rs, ((Dev.factory newSmall).run bakingApp prepare).1.Returns bakingApp ((tenderbakeBothTest 5).map made) rs ∧
    passes rs (tenderbakeBothTest 5) := by
  have hus : ∀ t ∈ tenderbakeBothTest 5, usableCall t = true := by decide +kernel
  have hfull : ∀ e ∈ prepare, e.2.Full := by decide +kernel
  have hfine : ∀ e ∈ prepare, e.1 = fine := by simp [prepare, reset, authorize, ok]
  have hes : ∀ e ∈ prepare, Kind e.1 e.2 ∧ Good e.1 e.2 := by
    intro e he
    rw [hfine e he]
    exact ⟨fine_kind _ (hfull e he), rfl, rfl, hfull e he⟩
  have htr : (Dev.factory newSmall).trace bakingApp prepare =
      [] ++ resetting :: (resetting.next bakingApp).trace bakingApp prepare.tail := rfl
  have hcl : ∀ it, Clear bakingApp [] resetting ((resetting.next bakingApp).trace bakingApp prepare.tail) it := by
    have h : ∀ i < ((resetting.next bakingApp).trace bakingApp prepare.tail).length,
        ∀ m ∈ ((resetting.next bakingApp).trace bakingApp prepare.tail)[i]?, asked bakingApp
          ([] ++ resetting :: ((resetting.next bakingApp).trace bakingApp prepare.tail).take i) m = none := by
      decide +kernel
    refine fun it => clear_of_check (by decide +kernel) fun i hi m hm j hj => ?_
    rw [h i hi m hm] at hj
    cases hj
  refine C111_tests bakingApp rfl newSmall (by decide +kernel) prepare hes [] _ _ htr sets_zero hcl _ rfl
    (by decide +kernel) js js_decimal pathText 0 key key_named (by decide +kernel) 5 (by decide) _
    (by simp [bakingTests]) _ ?_ ?_ (by decide)
  · intro x hx
    obtain ⟨t, ht, rfl⟩ := List.mem_map.mp hx
    exact made_proper (hus t ht)
  · rw [List.forall₂_map_left_iff]
    exact List.forall₂_same.mpr fun t ht => made_made (hus t ht)

/-- What a baker asks for. -/
def askedInTurn : List ZemuCall :=
  [⟨.blocklevel, getBlocklevelInfo 0 8 (some 2), true⟩,
   ⟨.blocklevel, getBlocklevelInfo 0 8 (some 2), false⟩,
   ⟨.blocklevel, getBlocklevelInfo 0 8 (some 1), false⟩,
   ⟨.endorsement, getEndorsementInfo 0 noBranch 8 .endorsement (some 2), true⟩,
   ⟨.blocklevel, getBlocklevelInfo 0 5 none, false⟩]

set_option maxRecDepth 100000 in
/-- `C111_session` after a setup at level 5: a block of the level 8 with the round 2, the same block again, the one of the
round 1, the endorsement of the round 2, and the block of the level 5. -/
example : ((Dev.factory newSmall).run bakingApp (setup 5)).1.Returns bakingApp
    (askedInTurn.map made) (List.zipWith BakerCall.result (askedInTurn.map made) [true, false, false, true, false]) := by
  have hus : ∀ t ∈ askedInTurn, usableCall t = true := by decide +kernel
  have hfull : ∀ e ∈ setup 5, e.2.Full := by decide +kernel
  have hfine : ∀ e ∈ setup 5, e.1 = fine := by simp [setup, ok]
  have hes : ∀ e ∈ setup 5, Kind e.1 e.2 ∧ Good e.1 e.2 := by
    intro e he
    rw [hfine e he]
    exact ⟨fine_kind _ (hfull e he), rfl, rfl, hfull e he⟩
  have hv : verdicts ⟨0, 5, 0, 0⟩ ((askedInTurn.map made).map BakerCall.item) = [true, false, false, true, false] := by
    decide +kernel
  rw [← hv]
  refine C111_session bakingApp rfl newSmall (by decide +kernel) (setup 5) hes _ rfl (by decide +kernel) js js_decimal
    pathText 0 key key_named (by decide +kernel) (hwmBytes 5) (by decide +kernel) _ (by decide +kernel) _ ?_ (by decide)
  intro x hx
  obtain ⟨t, ht, rfl⟩ := List.mem_map.mp hx
  exact made_proper (hus t ht)

/-- `C111_endorsement` and `C111_block`. -/
example : (getEndorsementInfo 0 noBranch 5 .preendorsement (some 1)).map (fun m => consensusItem (0x12 :: m)) =
    some (some ⟨1, 5, 1, 1⟩) := by decide +kernel

example : (getBlocklevelInfo 0 5 (some 1)).map (fun m => consensusItem (0x11 :: m)) = some (some ⟨1, 5, 1, 0⟩) := by
  decide +kernel

end Demo

end Tezos
