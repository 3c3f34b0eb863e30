import Verif.Bytes
/-
Flash pages and wear levelling: rust/bolos/src/flash_slot.rs.
-/
namespace Tezos

/-! ### CRC-32 (crate `crc`, `crc32::Digest` with the reflected IEEE polynomial), as used by
rust/bolos/src/flash_slot.rs 39-47. The crate's byte-table algorithm is modelled bit by bit. -/

/-- One bit of the reflected CRC-32 division. -/
def crcBit (c : UInt32) : UInt32 :=
  if c &&& 1 = 1 then (c >>> 1) ^^^ 0xEDB88320 else c >>> 1

/-- One byte of CRC-32. -/
def crcByte (c : UInt32) (b : UInt8) : UInt32 :=
  crcBit (crcBit (crcBit (crcBit (crcBit (crcBit (crcBit (crcBit (c ^^^ b.toUInt32))))))))

/-- CRC-32/IEEE of a byte string (initial value and final xor all ones). -/
def crc32 (bs : Bytes) : UInt32 := ~~~ (bs.foldl crcByte 0xFFFFFFFF)

/-! ### Slots -/

/-- rust/bolos/src/flash_slot.rs 23: `SLOT_SIZE = 64 - 8 - 4`. -/
def slotSize : Nat := 52

/-- rust/bolos/src/flash_slot.rs 27-31: `Slot` (the crc field is recomputed where needed). -/
structure Slot where
  counter : Nat
  payload : Bytes
  deriving DecidableEq, Repr

/-- rust/bolos/src/flash_slot.rs 39-47: `Slot::crc32`. -/
def slotCrc (counter : Nat) (payload : Bytes) : UInt32 := crc32 (beEnc 8 counter ++ payload)

/-- rust/bolos/src/flash_slot.rs 60-92: `Slot::from_storage`; `none` is `SlotError::Crc`. -/
def Slot.ofPage (page : Bytes) : Option Slot :=
  let cnt := beDec (page.take 8)
  let payload := slice page 8 slotSize
  let crc := u32OfBe (page.drop 60)
  if crc = slotCrc cnt payload then some ⟨cnt, payload⟩ else none

/-- rust/bolos/src/flash_slot.rs 94-136: `Slot::modify` followed by `as_storage`: the 64 byte page for
a counter and payload. -/
def Slot.toPage (counter : Nat) (payload : Bytes) : Bytes :=
  beEnc 8 counter ++ payload ++ be32 (slotCrc counter payload)

/-- rust/bolos/src/flash_slot.rs 25 and 49-58: `ZEROED_STORAGE`, with the literal CRC of the source. -/
def zeroedPage : Bytes := beEnc 8 0 ++ List.replicate slotSize 0 ++ be32 0x4128908

/-! ### Wear levelling -/

/-- rust/bolos/src/flash_slot.rs 147-151: `WearError`; `panic` is the division by zero that a store
with zero pages would cause (never instantiated). -/
inductive WearError where
  | crc | nvmWrite | uninitialized | panic
  deriving DecidableEq, Repr

/-- What happens to one NVM page write (rust/bolos-impl/src/nvm.rs 60-90): it completes, it raises an
exception that is caught (`NVMError::Internal`) leaving some page contents behind, or power is lost
during it, leaving some page contents behind. -/
inductive WriteFate where
  | done
  | fails (page : Bytes)
  | powerLoss (page : Bytes)
  deriving DecidableEq, Repr

/-- Result of a write as seen by the caller; after a power loss there is no caller any more. -/
inductive WriteRes where
  | ok | err | powerLoss | panic
  deriving DecidableEq, Repr

/-- rust/bolos/src/flash_slot.rs 206-209: `Wear`. `pages` is in flash, `idx` in RAM. -/
structure Wear where
  pages : List Bytes
  idx : Nat
  deriving DecidableEq, Repr

/-- rust/bolos/src/flash_slot.rs 222-234: the loop of `align`; `none` is a CRC error. -/
def alignLoop : Nat → List Bytes → Option Nat
  | m, [] => some m
  | m, p :: ps =>
    match Slot.ofPage p with
    | none => none
    | some s => alignLoop (if s.counter > m then s.counter else m) ps

/-- rust/bolos/src/flash_slot.rs 212-217: `Wear::new`. -/
def Wear.new (pages : List Bytes) : Except WearError Wear :=
  match alignLoop 0 pages with
  | none => .error .crc
  | some m => .ok ⟨pages, m⟩

/-- rust/bolos/src/flash_slot.rs 266-275: `Wear::read`. -/
def Wear.read (w : Wear) : Except WearError Bytes :=
  match w.pages[w.idx % w.pages.length]? with
  | none => .error .panic
  | some page =>
    match Slot.ofPage page with
    | none => .error .crc
    | some s => if s.counter = 0 then .error .uninitialized else .ok s.payload

/-- rust/bolos/src/flash_slot.rs 255-263: `Wear::write`; `idx` is a `u64`, incremented (wrapping in a
release build) before the page is written. -/
def Wear.write (fate : WriteFate) (payload : Bytes) (w : Wear) : Wear × WriteRes :=
  let idx := (w.idx + 1) % 2 ^ 64
  if w.pages.length = 0 then ({ w with idx := idx }, .panic) else
  let pos := idx % w.pages.length
  match fate with
  | .done => (⟨w.pages.set pos (Slot.toPage idx payload), idx⟩, .ok)
  | .fails page => (⟨w.pages.set pos page, idx⟩, .err)
  | .powerLoss page => (⟨w.pages.set pos page, idx⟩, .powerLoss)

/-- rust/bolos/src/flash_slot.rs 243-250: `Wear::format`, all page writes completing. -/
def Wear.format (w : Wear) : Wear :=
  ⟨w.pages.map (fun _ => Slot.toPage 0 (List.replicate slotSize 0)), 0⟩

/-- A store as flashed with the app: rust/bolos/src/flash_slot.rs 291-300 (`new_flash_slot!`). -/
def freshPages (n : Nat) : List Bytes := List.replicate n zeroedPage

/-! ### Lemmas -/

/-- `CRC_ZERO` of rust/bolos/src/flash_slot.rs 51 is the CRC of the zero slot. -/
theorem crc_zero : slotCrc 0 (List.replicate slotSize 0) = 0x4128908 := by decide +kernel

theorem zeroedPage_eq : zeroedPage = Slot.toPage 0 (List.replicate slotSize 0) := by
  unfold zeroedPage Slot.toPage
  rw [crc_zero]

theorem Slot.toPage_length {c : Nat} {p : Bytes} (h : p.length = slotSize) :
    (Slot.toPage c p).length = 64 := by
  simp [Slot.toPage, h, slotSize]

/-- Page codec round trip. -/
theorem Slot.ofPage_toPage {c : Nat} {p : Bytes} (hc : c < 2 ^ 64) (hp : p.length = slotSize) :
    Slot.ofPage (Slot.toPage c p) = some ⟨c, p⟩ := by
  unfold slotSize at hp
  have h1 : (Slot.toPage c p).take 8 = beEnc 8 c := by
    unfold Slot.toPage
    rw [List.append_assoc, List.take_append_of_le_length (by simp)]
    exact List.take_of_length_le (by simp)
  have h2 : slice (Slot.toPage c p) 8 slotSize = p := by
    unfold Slot.toPage slice slotSize
    rw [List.append_assoc, List.drop_append_of_le_length (by simp),
      List.drop_of_length_le (by simp), List.nil_append,
      List.take_append_of_le_length (by omega), List.take_of_length_le (by omega)]
  have h3 : (Slot.toPage c p).drop 60 = be32 (slotCrc c p) := by
    unfold Slot.toPage
    rw [List.drop_append, List.drop_of_length_le (by simp [hp])]
    simp [hp]
  have hd : beDec (beEnc 8 c) = c := beDec_beEnc_of_lt (by simpa using hc)
  simp only [Slot.ofPage, h1, h2, h3, hd, u32OfBe_be32, if_true]

theorem Slot.ofPage_zeroed : Slot.ofPage zeroedPage = some ⟨0, List.replicate slotSize 0⟩ := by
  rw [zeroedPage_eq]
  exact Slot.ofPage_toPage (by decide) (by simp)

/-- The store invariant: every page decodes, no counter exceeds `k`, and the page selected by `k`
holds exactly counter `k` and payload `v`. `k` is the number of completed writes. -/
structure StoreInv (pages : List Bytes) (k : Nat) (v : Bytes) : Prop where
  pos : 0 < pages.length
  valid : ∀ p ∈ pages, ∃ s, Slot.ofPage p = some s ∧ s.counter ≤ k
  cur : ∃ p, pages[k % pages.length]? = some p ∧ Slot.ofPage p = some ⟨k, v⟩

theorem StoreInv.fresh {n : Nat} (hn : 0 < n) :
    StoreInv (freshPages n) 0 (List.replicate slotSize 0) := by
  refine ⟨by simpa [freshPages] using hn, ?_, ?_⟩
  · intro p hp
    simp only [freshPages, List.mem_replicate] at hp
    rw [hp.2, Slot.ofPage_zeroed]
    exact ⟨_, rfl, by simp⟩
  · refine ⟨zeroedPage, ?_, Slot.ofPage_zeroed⟩
    simp [freshPages, hn]

theorem alignLoop_valid {pages : List Bytes} {k m : Nat}
    (hv : ∀ p ∈ pages, ∃ s, Slot.ofPage p = some s ∧ s.counter ≤ k) (hm : m ≤ k)
    (hk : m = k ∨ ∃ p ∈ pages, ∃ v, Slot.ofPage p = some ⟨k, v⟩) :
    alignLoop m pages = some k := by
  induction pages generalizing m with
  | nil =>
    rcases hk with rfl | ⟨p, hp, _⟩
    · rfl
    · simp at hp
  | cons p ps ih =>
    obtain ⟨s, hs, hsk⟩ := hv p (by simp)
    simp only [alignLoop, hs]
    apply ih (fun q hq => hv q (by simp [hq]))
    · split <;> omega
    · rcases hk with rfl | ⟨q, hq, v, hqv⟩
      · left
        split <;> omega
      · rcases List.mem_cons.mp hq with rfl | hq
        · left
          rw [hs] at hqv
          simp only [Option.some.injEq] at hqv
          subst hqv
          simp only
          split <;> omega
        · right
          exact ⟨q, hq, v, hqv⟩

theorem alignLoop_none {pages : List Bytes} {m : Nat} (h : ∃ p ∈ pages, Slot.ofPage p = none) :
    alignLoop m pages = none := by
  induction pages generalizing m with
  | nil => simp at h
  | cons p ps ih =>
    simp only [alignLoop]
    cases hp : Slot.ofPage p with
    | none => rfl
    | some s =>
      simp only
      apply ih
      obtain ⟨q, hq, hqn⟩ := h
      rcases List.mem_cons.mp hq with rfl | hq
      · rw [hp] at hqn; simp at hqn
      · exact ⟨q, hq, hqn⟩

/-- Opening a good store positions it on the last written page. -/
theorem StoreInv.new {pages : List Bytes} {k : Nat} {v : Bytes} (h : StoreInv pages k v) :
    Wear.new pages = .ok ⟨pages, k⟩ := by
  unfold Wear.new
  rw [alignLoop_valid h.valid (Nat.zero_le k)]
  right
  obtain ⟨p, hp, hpv⟩ := h.cur
  exact ⟨p, List.mem_of_getElem? hp, v, hpv⟩

theorem StoreInv.read {pages : List Bytes} {k : Nat} {v : Bytes} (h : StoreInv pages k v) :
    Wear.read ⟨pages, k⟩ = if k = 0 then .error .uninitialized else .ok v := by
  obtain ⟨p, hp, hpv⟩ := h.cur
  simp only [Wear.read, hp, hpv]

/-- A completed write moves the invariant on by one. -/
theorem StoreInv.set {pages : List Bytes} {k : Nat} {v u : Bytes} (h : StoreInv pages k v)
    (hk : k + 1 < 2 ^ 64) (hu : u.length = slotSize) :
    StoreInv (pages.set ((k + 1) % pages.length) (Slot.toPage (k + 1) u)) (k + 1) u := by
  have hlt : (k + 1) % pages.length < pages.length := Nat.mod_lt _ h.pos
  have hdec := Slot.ofPage_toPage hk hu
  refine ⟨by simpa using h.pos, ?_, ?_⟩
  · intro p hp
    rcases List.mem_or_eq_of_mem_set hp with hp | rfl
    · obtain ⟨s, hs, hsk⟩ := h.valid p hp
      exact ⟨s, hs, by omega⟩
    · exact ⟨_, hdec, Nat.le_refl _⟩
  · refine ⟨_, ?_, hdec⟩
    rw [List.length_set, List.getElem?_set_self hlt]

end Tezos
