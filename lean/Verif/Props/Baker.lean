import Verif.Props.Client
import Verif.Props.Watermarks
import Verif.Scenario
/-
C101: no double signing as the software of a baker sees it, through the JavaScript client.
-/
namespace Tezos
open Spec

/-- Two calls of the client in a history of a device from the factory, one after the other: the events of the history are
those before, those of the first call, those in between, those of the second call, and those after. There is no reset and
no approved setup from the beginning of the first call to the end of the second. -/
structure TwoCalls (cfg : Config) (new : NewDevice) (es : List (Env × Event)) (t1 t2 : List Moment) : Prop where
  full : new.upload.length = uploadCapacity
  good : ∀ e ∈ es, Good e.1 e.2
  sized : ∀ e ∈ es, e.1.cr.Sized
  sound : ∀ e ∈ es, e.1.mainF.Sound
  short : es.length < 2 ^ 64
  split : ∃ past mid rest, (Dev.factory new).trace cfg es = past ++ (t1 ++ (mid ++ (t2 ++ rest))) ∧
    ∀ m ∈ t1 ++ (mid ++ t2), ¬ Overrides cfg m.st m.ev

theorem sigsOf_single {t : List Moment} {x : SigRec} (h : sigsOf t = [x]) :
    ∃ a m b, t = a ++ m :: b ∧ m.out.sig = some x := by
  have hx : x ∈ sigsOf t := by rw [h]; exact List.mem_cons_self
  obtain ⟨m, hm, hs⟩ := List.mem_filterMap.mp hx
  obtain ⟨a, b, rfl⟩ := List.append_of_mem hm
  exact ⟨a, m, b, rfl, hs⟩

/-- C101: if two calls of the client for signatures of consensus messages - blocks, endorsements, preendorsements of
either protocol, by the current or the legacy calls, for whatever paths and curves - both return success, the message of
the later call is about a strictly higher item, whatever the user did, whatever other calls were made, and however often
the device was restarted or lost power. -/
theorem C101_increasing (cfg : Config) (new : NewDevice) (es : List (Env × Event)) (t1 t2 : List Moment)
    (h : TwoCalls cfg new es t1 t2) (js : Js) (hjs : js.ReadsDecimal) (path1 path2 : Bytes) (cs1 cs2 : List Component)
    (hp1 : IsPathText path1 cs1) (hp2 : IsPathText path2 cs2) (curve1 curve2 : UInt8) (message1 message2 : Bytes)
    (b1 b2 : UInt8) (call1 call2 : Client SignResponse) (hc1 : SigningRequest js path1 curve1 message1 b1 call1)
    (hc2 : SigningRequest js path2 curve2 message2 b2 call2) (r1 r2 : SignResponse) (ht1 : Talk call1 t1 r1)
    (ht2 : Talk call2 t2 r2) (hm1 : isConsensusMagic (b1 :: message1) = true)
    (hm2 : isConsensusMagic (b2 :: message2) = true) (hr1 : r1.returnCode = 0x9000) (hr2 : r2.returnCode = 0x9000) :
    ∃ i1 i2, consensusItem (b1 :: message1) = some i1 ∧ consensusItem (b2 :: message2) = some i2 ∧ Item.lt i1 i2 := by
  obtain ⟨hu, hg, hz, hs, hl, past, mid, rest, hsp, ho⟩ := h
  rcases C62_signing cfg new hu es hg hz past t1 (mid ++ (t2 ++ rest)) hsp js hjs path1 cs1 hp1 curve1 message1 b1 call1
    hc1 r1 ht1 with ⟨h1, -⟩ | ⟨-, x1, s1, e1, -⟩
  · exact absurd hr1 h1
  have hsp2 : (Dev.factory new).trace cfg es = (past ++ t1 ++ mid) ++ (t2 ++ rest) := by
    rw [hsp]; simp only [List.append_assoc]
  rcases C62_signing cfg new hu es hg hz (past ++ t1 ++ mid) t2 rest hsp2 js hjs path2 cs2 hp2 curve2 message2 b2 call2
    hc2 r2 ht2 with ⟨h2, -⟩ | ⟨-, x2, s2, e2, -⟩
  · exact absurd hr2 h2
  obtain ⟨a1, m1, z1, rfl, g1⟩ := sigsOf_single s1
  obtain ⟨a2, m2, z2, rfl, g2⟩ := sigsOf_single s2
  have hb : Between cfg new es m1 m2 := by
    refine ⟨hs, hl, past ++ a1, z1 ++ (mid ++ a2), z2 ++ rest, ?_, ?_⟩
    · rw [hsp]; simp only [List.append_assoc, List.cons_append]
    · intro m hm
      apply ho
      simp only [List.mem_append, List.mem_cons] at hm ⊢
      rcases hm with hm | hm | hm
      · exact .inl (.inr (.inr hm))
      · exact .inr (.inl hm)
      · exact .inr (.inr (.inl hm))
  have := C01_consensus_signatures_increase cfg new es m1 m2 hb x1 x2 g1 g2 (by rw [e1]; exact hm1) (by rw [e2]; exact hm2)
  rw [e1, e2] at this
  exact this

/-- C101: of two calls for different Tenderbake messages of the same kind, level and round - or the same message twice -
at most one returns success. -/
theorem C101_one_of_two (cfg : Config) (new : NewDevice) (es : List (Env × Event)) (t1 t2 : List Moment)
    (h : TwoCalls cfg new es t1 t2) (js : Js) (hjs : js.ReadsDecimal) (path1 path2 : Bytes) (cs1 cs2 : List Component)
    (hp1 : IsPathText path1 cs1) (hp2 : IsPathText path2 cs2) (curve1 curve2 : UInt8) (message1 message2 : Bytes)
    (b1 b2 : UInt8) (call1 call2 : Client SignResponse) (hc1 : SigningRequest js path1 curve1 message1 b1 call1)
    (hc2 : SigningRequest js path2 curve2 message2 b2 call2) (r1 r2 : SignResponse) (ht1 : Talk call1 t1 r1)
    (ht2 : Talk call2 t2 r2) (item : Item) (hi1 : consensusItem (b1 :: message1) = some item)
    (hi2 : consensusItem (b2 :: message2) = some item) : r1.returnCode ≠ 0x9000 ∨ r2.returnCode ≠ 0x9000 := by
  by_cases hr1 : r1.returnCode = 0x9000
  · by_cases hr2 : r2.returnCode = 0x9000
    · obtain ⟨i1, i2, g1, g2, g3⟩ := C101_increasing cfg new es t1 t2 h js hjs path1 path2 cs1 cs2 hp1 hp2 curve1 curve2
        message1 message2 b1 b2 call1 call2 hc1 hc2 r1 r2 ht1 ht2 (consensusItem_magic hi1)
        (consensusItem_magic hi2) hr1 hr2
      rw [hi1] at g1
      rw [hi2] at g2
      cases g1
      cases g2
      exact absurd g3 (Item.lt_irrefl _)
    · exact .inr hr2
  · exact .inl hr1

namespace Demo

/-- A baker asks for a block, restarts the app, and asks for another block of the same level and round. -/
def bakerAsks : List (Env × Event) :=
  setup 10 ++ ok ([apdu 0xAF 0 0 keyPath, apdu 0xAF 2 0 (tbBlock 11 0), .relaunch, apdu 0xAF 0 0 keyPath,
    apdu 0xAF 2 0 (tbBlock 11 0 1), apdu 0xAF 0 0 keyPath, apdu 0xAF 2 0 (tbBlock 11 1)])

set_option maxRecDepth 100000 in
/-- Satisfiable: the first call returns success, the second does not, a third for the next round does. -/
example :
    let t := (Dev.factory ⟨.small, List.replicate uploadCapacity 0⟩).trace bakingApp bakerAsks
    let ask := fun (t : List Moment) (m : Bytes) =>
      ((signBaker js pathText 0 (m.drop 1) .blocklevel).bind fun c => play t (.inl c)).map (·.returnCode)
    ask ((t.drop 8).take 2) (tbBlock 11 0) = some 0x9000 ∧
    ask ((t.drop 11).take 2) (tbBlock 11 0 1) = some 0x6984 ∧
    ask ((t.drop 13).take 2) (tbBlock 11 1) = some 0x9000 ∧
    (∀ m ∈ t.drop 8, ¬ Overrides bakingApp m.st m.ev) ∧
    consensusItem (tbBlock 11 0) = some ⟨1, 11, 0, 0⟩ ∧ consensusItem (tbBlock 11 0 1) = some ⟨1, 11, 0, 0⟩ := by
  decide +kernel

end Demo

end Tezos
