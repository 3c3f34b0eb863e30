import Verif.Render
import Verif.Props.Format
/-
C52 displayed addresses, C54 displayed chains, C56 names of bakers.
-/
set_option linter.unusedSimpArgs false
namespace Tezos
open Spec

/-! ### Checked base58 texts -/

theorem orUnknown_ok {α : Type} {o : Option α} {a : α} : orUnknown o = .ok a ↔ o = some a := by
  cases o <;> simp [orUnknown]

theorem base58Into_ok {cap : Nat} {l t : Bytes} : base58Into cap l = .ok t ↔ (base58 l).length ≤ cap ∧ t = base58 l := by
  unfold base58Into
  split
  · rename_i h; simp [h, eq_comm]
  · rename_i h; simp [h]

theorem sha256x2_length {cr : Crypto} (hs : cr.Sized) {l : List Bytes} {s : Bytes}
    (h : sha256x2 cr l = some s) : s.length = 4 := by
  unfold sha256x2 at h
  simp only [Option.bind_eq_bind, Option.bind_eq_some_iff, Option.pure_def, Option.some.injEq] at h
  obtain ⟨d1, -, d2, h2, rfl⟩ := h
  have := hs.sha256 h2
  simp [this]

theorem checked_some {cr : Crypto} {pfx payload b : Bytes} :
    checked cr pfx payload = some b ↔ ∃ s, sha256x2 cr [pfx, payload] = some s ∧ b = pfx ++ payload ++ s := by
  unfold checked
  simp only [Option.bind_eq_bind, Option.bind_eq_some_iff, Option.pure_def, Option.some.injEq]
  constructor
  · rintro ⟨s, h, rfl⟩; exact ⟨s, h, rfl⟩
  · rintro ⟨s, h, rfl⟩; exact ⟨s, h, rfl⟩

/-- Prefix, payload and checksum are recovered from the bytes when the prefixes have equal length. -/
theorem checked_injective {cr cr' : Crypto} (hs : cr.Sized) (hs' : cr'.Sized) {p1 p2 x1 x2 b : Bytes}
    (hp : p1.length = p2.length)
    (h1 : checked cr p1 x1 = some b) (h2 : checked cr' p2 x2 = some b) : p1 = p2 ∧ x1 = x2 := by
  obtain ⟨s1, e1, rfl⟩ := checked_some.mp h1
  obtain ⟨s2, e2, e⟩ := checked_some.mp h2
  have l1 := sha256x2_length hs e1
  have l2 := sha256x2_length hs' e2
  obtain ⟨a, -⟩ := List.append_inj' e (by omega)
  exact List.append_inj a hp

theorem checked_length {cr : Crypto} (hs : cr.Sized) {p x b : Bytes} (h : checked cr p x = some b) :
    b.length = p.length + x.length + 4 := by
  obtain ⟨s, e, rfl⟩ := checked_some.mp h
  have := sha256x2_length hs e
  simp; omega

theorem pkhText_ok {cr : Crypto} {p : Pkh} {t : Bytes} (h : pkhText cr p = .ok t) :
    ∃ b, checked cr p.curve.hashPrefix p.hash = some b ∧ t = base58 b := by
  unfold pkhText Addr.fromHash Addr.base58 at h
  simp only [ebind_ok, orUnknown_ok, Option.bind_eq_bind, Option.bind_eq_some_iff, Option.pure_def,
    Option.some.injEq, base58Into_ok] at h
  obtain ⟨a, ⟨b, hb, rfl⟩, -, rfl⟩ := h
  exact ⟨b, hb, rfl⟩

/-- The prefix of an address does not separate the two flavours of the Edwards curve, and nothing else. -/
theorem hashPrefix_injective {a b : Curve} (ha : a ≠ .ed25519) (hb : b ≠ .ed25519)
    (h : a.hashPrefix = b.hashPrefix) : a = b := by
  revert h
  cases a <;> cases b <;> first | exact fun _ => rfl | (exact absurd rfl ha) | (exact absurd rfl hb) | decide

theorem hashPrefix_length (c : Curve) : c.hashPrefix.length = 3 := by cases c <;> rfl

theorem keyPrefix_injective {a b : Curve} (ha : a ≠ .ed25519) (hb : b ≠ .ed25519)
    (h : a.keyPrefix = b.keyPrefix) : a = b := by
  revert h
  cases a <;> cases b <;> first | exact fun _ => rfl | (exact absurd rfl ha) | (exact absurd rfl hb) | decide

theorem keyPrefix_length (c : Curve) : c.keyPrefix.length = 4 := by cases c <;> rfl

/-! ### C52 -/

/-- **C52.** Two accounts displayed by the same text have the same address prefix (`tz1`, `tz2` or `tz3`) and
the same key hash. -/
theorem C52_address_identifies (cr cr' : Crypto) (hs : cr.Sized) (hs' : cr'.Sized) (p q : Pkh) (t : Bytes)
    (hp : pkhText cr p = .ok t) (hq : pkhText cr' q = .ok t) :
    p.curve.hashPrefix = q.curve.hashPrefix ∧ p.hash = q.hash := by
  obtain ⟨b1, h1, rfl⟩ := pkhText_ok hp
  obtain ⟨b2, h2, he⟩ := pkhText_ok hq
  have := base58_injective he
  subst this
  exact checked_injective hs hs' (by rw [hashPrefix_length, hashPrefix_length]) h1 h2

/-- Same destination: both contracts with the same hash, or both accounts with the same prefix and hash. -/
def SameDestination : ContractID → ContractID → Prop
  | .implicit p, .implicit q => p.curve.hashPrefix = q.curve.hashPrefix ∧ p.hash = q.hash
  | .originated x, .originated y => x = y
  | _, _ => False

/-- **C52**, for a destination: an implicit account is never displayed as a contract or the other way. -/
theorem C52_destination_identifies (cr cr' : Crypto) (hs : cr.Sized) (hs' : cr'.Sized) (c d : ContractID)
    (t : Bytes) (hc : c.text cr = .ok t) (hd : d.text cr' = .ok t) : SameDestination c d := by
  unfold ContractID.text at hc hd
  have key : ∀ {p1 p2 x1 x2 : Bytes}, p1.length = p2.length →
      (do let b ← orUnknown (checked cr p1 x1); base58Into 37 b) = .ok t →
      (do let b ← orUnknown (checked cr' p2 x2); base58Into 37 b) = .ok t → p1 = p2 ∧ x1 = x2 := by
    intro p1 p2 x1 x2 hl h1 h2
    simp only [ebind_ok, orUnknown_ok, base58Into_ok] at h1 h2
    obtain ⟨b1, h1, -, rfl⟩ := h1
    obtain ⟨b2, h2, -, he⟩ := h2
    have := base58_injective he
    subst this
    exact checked_injective hs hs' hl h1 h2
  cases c with
  | implicit p =>
    cases d with
    | implicit q => exact key (by rw [hashPrefix_length, hashPrefix_length]) hc hd
    | originated y =>
      have := (key (by rw [hashPrefix_length]; rfl) hc hd).1
      exact absurd this (by cases p.curve <;> decide)
  | originated x =>
    cases d with
    | implicit q =>
      have := (key (by rw [hashPrefix_length]; rfl) hc hd).1
      exact absurd this (by cases q.curve <;> decide)
    | originated y => exact (key rfl hc hd).2

/-- **C52**, for keys: the displayed address of a key (`Addr::new_into` then `base58`) determines the address
prefix and the key hash it was made from. -/
theorem C52_key_address (cr : Crypto) (hs : cr.Sized) (c d : Curve) (k l : Bytes) (a b : Addr)
    (t : Bytes) (ha : Addr.ofKey cr c k = some a) (hb : Addr.ofKey cr d l = some b)
    (hta : a.base58 = .ok t) (htb : b.base58 = .ok t) :
    c.hashPrefix = d.hashPrefix ∧ ∃ h, keyHash cr c k = some h ∧ keyHash cr d l = some h := by
  unfold Addr.ofKey Addr.fromHash at ha hb
  unfold Addr.base58 at hta htb
  simp only [Option.bind_eq_bind, Option.bind_eq_some_iff, Option.pure_def, Option.some.injEq] at ha hb
  obtain ⟨h1, e1, b1, c1, rfl⟩ := ha
  obtain ⟨h2, e2, b2, c2, rfl⟩ := hb
  simp only [base58Into_ok] at hta htb
  have := base58_injective (hta.2.symm.trans htb.2)
  subst this
  obtain ⟨hp, rfl⟩ := checked_injective hs hs (by rw [hashPrefix_length, hashPrefix_length]) c1 c2
  exact ⟨hp, h1, e1, e2⟩

/-- The three prefixes are different, so the text separates the curves. -/
theorem C52_prefixes_distinct :
    Curve.ed25519.hashPrefix ≠ Curve.secp256k1.hashPrefix ∧
    Curve.ed25519.hashPrefix ≠ Curve.secp256r1.hashPrefix ∧
    Curve.secp256k1.hashPrefix ≠ Curve.secp256r1.hashPrefix ∧
    Curve.bip32Ed25519.hashPrefix = Curve.ed25519.hashPrefix := by decide

/-- **C52**, no failure: when the hash function works, an account with a 20-byte hash has a text: the
buffer of the code is large enough for every address. -/
theorem C52_address_shown (cr : Crypto) (hs : cr.Sized) (hok : ∀ m, (cr.sha256 m).isSome) (p : Pkh)
    (hl : p.hash.length = 20) : ∃ t, pkhText cr p = .ok t := by
  obtain ⟨d1, h1⟩ := Option.isSome_iff_exists.mp (hok [p.curve.hashPrefix, p.hash].flatten)
  obtain ⟨d2, h2⟩ := Option.isSome_iff_exists.mp (hok d1)
  have hc : checked cr p.curve.hashPrefix p.hash = some (p.curve.hashPrefix ++ p.hash ++ d2.take 4) := by
    rw [checked_some]
    refine ⟨d2.take 4, ?_, rfl⟩
    simp only [sha256x2, h1, h2, Option.bind_eq_bind, Option.bind_some, Option.pure_def]
  have hlen := checked_length hs hc
  rw [hashPrefix_length, hl] at hlen
  refine ⟨base58 (p.curve.hashPrefix ++ p.hash ++ d2.take 4), ?_⟩
  unfold pkhText Addr.fromHash Addr.base58
  rw [hc]
  simp only [Option.bind_eq_bind, Option.bind_some, Option.pure_def, orUnknown, ebind_ok_left]
  exact base58_fits_address hlen

/-- A device whose hash function is constant, for concrete cases. -/
def zeroCrypto : Crypto where
  sha256 _ := some (List.replicate 32 0)
  sha512 _ := some (List.replicate 64 0)
  blake2b n _ := some (List.replicate n 0)
  hmac _ _ := some (List.replicate 32 0)
  publicKey c _ := some (List.replicate (match c with | .ed25519 | .bip32Ed25519 => 33 | _ => 65) 4)
  sign _ _ _ := some (List.replicate 64 9)

theorem zeroCrypto_sized : zeroCrypto.Sized where
  sha256 := by simp only [zeroCrypto, Option.some.injEq]; rintro _ _ rfl; simp
  sha512 := by simp only [zeroCrypto, Option.some.injEq]; rintro _ _ rfl; simp
  blake2b := by simp only [zeroCrypto, Option.some.injEq]; rintro _ _ _ rfl; simp
  hmac := by simp only [zeroCrypto, Option.some.injEq]; rintro _ _ _ rfl; simp
  publicKey := by
    simp only [zeroCrypto, Option.some.injEq]; rintro c _ _ rfl; cases c <;> simp
  sign := by simp only [zeroCrypto, Option.some.injEq]; rintro _ _ _ _ rfl; simp

-- Even with a useless checksum different hashes and curves give different texts.
example : ∃ t, pkhText zeroCrypto ⟨.secp256k1, List.replicate 20 1⟩ = .ok t :=
  C52_address_shown _ zeroCrypto_sized (by simp [zeroCrypto]) _ (by simp)

/-! ### C54 -/

theorem chainIdText_ok {cr : Crypto} {id : UInt32} {t : Bytes} (h : chainIdText cr id = .ok t) :
    ∃ b, checked cr prefixNET (be32 id) = some b ∧ t = base58 b := by
  unfold chainIdText at h
  simp only [ebind_ok, orUnknown_ok, base58Into_ok] at h
  obtain ⟨b, hb, -, rfl⟩ := h
  exact ⟨b, hb, rfl⟩

theorem base58Char_ne_zero (d : Nat) (h : d < 58) : base58Char d ≠ 0 :=
  (by decide : ∀ d < 58, base58Char d ≠ 0) d h

theorem base58_no_nul (l : Bytes) : (0 : UInt8) ∉ base58 l := by
  rw [base58_eq]
  simp only [List.mem_append, List.mem_replicate, List.mem_map, List.mem_reverse, not_or]
  constructor
  · rintro ⟨-, h⟩; exact absurd h (by decide)
  · rintro ⟨d, hd, h⟩
    exact base58Char_ne_zero d (Nat.digits_lt_base (by omega) hd) h

/-- **C54**, display: two chain ids shown by the same text are equal; in particular no other identifier is
ever shown as `any` or `mainnet`. -/
theorem C54_alias_identifies (cr cr' : Crypto) (hs : cr.Sized) (hs' : cr'.Sized) (a b : UInt32) (t : Bytes)
    (ha : (ChainID.ofU32 a).alias cr = .ok t) (hb : (ChainID.ofU32 b).alias cr' = .ok t) : a = b := by
  have named : ∀ (cr : Crypto) (id : UInt32) (s : String), cstr s = t → chainIdText cr id ≠ .ok t := by
    intro cr id s h1 h2
    obtain ⟨x, -, h⟩ := chainIdText_ok h2
    have : (0 : UInt8) ∈ base58 x := by rw [← h, ← h1]; simp [cstr]
    exact base58_no_nul x this
  have hd : cstr "any" ≠ cstr "mainnet" := by decide
  unfold ChainID.ofU32 at ha hb
  split at ha
  · rename_i h0
    simp only [ChainID.alias, Except.ok.injEq] at ha
    split at hb
    · rename_i h1; rw [h0, h1]
    split at hb
    · simp only [ChainID.alias, Except.ok.injEq] at hb
      exact absurd (ha.trans hb.symm) hd
    · exact absurd hb (named _ _ _ ha)
  split at ha
  · rename_i h0
    simp only [ChainID.alias, Except.ok.injEq] at ha
    split at hb
    · simp only [ChainID.alias, Except.ok.injEq] at hb
      exact absurd (hb.trans ha.symm) hd
    split at hb
    · rename_i h1; rw [h0, h1]
    · exact absurd hb (named _ _ _ ha)
  · split at hb
    · simp only [ChainID.alias, Except.ok.injEq] at hb
      exact absurd ha (named _ _ _ hb)
    split at hb
    · simp only [ChainID.alias, Except.ok.injEq] at hb
      exact absurd ha (named _ _ _ hb)
    · simp only [ChainID.alias] at ha hb
      obtain ⟨x, hx, rfl⟩ := chainIdText_ok ha
      obtain ⟨y, hy, he⟩ := chainIdText_ok hb
      have := base58_injective he
      subst this
      have h4 := (checked_injective hs hs' rfl hx hy).2
      exact be32_inj h4

/-- **C54**, the two names: 0 is shown as `any`, 0x7A06A770 as `mainnet`. -/
theorem C54_alias_names (cr : Crypto) :
    (ChainID.ofU32 0).alias cr = .ok (ascii "any" ++ [0]) ∧
    (ChainID.ofU32 0x7A06A770).alias cr = .ok (ascii "mainnet" ++ [0]) := ⟨rfl, rfl⟩

/-! ### C56 -/

theorem bytesCmp_eq {a b : Bytes} : bytesCmp a b = .eq ↔ a = b := by
  induction a generalizing b with
  | nil => cases b <;> simp [bytesCmp]
  | cons x xs ih =>
    cases b with
    | nil => simp [bytesCmp]
    | cons y ys =>
      simp only [bytesCmp, List.cons.injEq]
      split
      · rename_i h; simp; intro e; subst e; exact absurd h (by simp)
      · split
        · rename_i h; simp; intro e; subst e; exact absurd h (by simp)
        · rename_i h1 h2
          rw [ih]
          have : x = y := UInt8.le_antisymm (UInt8.not_lt.mp h2) (UInt8.not_lt.mp h1)
          simp [this]

theorem Baker.cmp_eq {b : Baker} {pfx hash : Bytes} : b.cmp pfx hash = .eq ↔ b.pfx = pfx ∧ b.hash = hash := by
  unfold Baker.cmp
  cases h : bytesCmp b.pfx pfx with
  | eq => simp [bytesCmp_eq, bytesCmp_eq.mp h]
  | lt => simp; intro e; rw [bytesCmp_eq.mpr e] at h; simp at h
  | gt => simp; intro e; rw [bytesCmp_eq.mpr e] at h; simp at h

theorem binarySearch_sound (cmp : Nat → Ordering) (f l r i : Nat) (h : binarySearch cmp f l r = some i) :
    cmp i = .eq ∧ l ≤ i ∧ i < r := by
  induction f generalizing l r with
  | zero => simp [binarySearch] at h
  | succ f ih =>
    unfold binarySearch at h
    split at h
    · simp only at h
      split at h
      · have := ih _ _ h; exact ⟨this.1, by omega, by omega⟩
      · have := ih _ _ h; exact ⟨this.1, by omega, by omega⟩
      · rename_i hc
        simp only [Option.some.injEq] at h
        subst h
        exact ⟨hc, by omega, by omega⟩
    · simp at h

/-- On a table in which the comparison is monotone, the search finds an entry whenever there is one. -/
theorem binarySearch_complete (cmp : Nat → Ordering) (f l r k : Nat) (hf : r - l < f)
    (hmono : ∀ i j, i < j → cmp j = .lt → cmp i = .lt)
    (hmono' : ∀ i j, i < j → cmp i = .gt → cmp j = .gt)
    (hk : cmp k = .eq) (hl : l ≤ k) (hr : k < r) : (binarySearch cmp f l r).isSome := by
  induction f generalizing l r with
  | zero => omega
  | succ f ih =>
    unfold binarySearch
    rw [if_pos (by omega)]
    simp only
    split
    · rename_i hc
      apply ih
      · omega
      · by_contra hlt
        rcases Nat.lt_or_ge k (l + (r - l) / 2) with h | h
        · have := hmono _ _ h hc; rw [hk] at this; simp at this
        · have : k = l + (r - l) / 2 := by omega
          rw [← this, hk] at hc; simp at hc
      · omega
    · rename_i hc
      apply ih
      · omega
      · omega
      · by_contra hlt
        rcases Nat.lt_or_ge (l + (r - l) / 2) k with h | h
        · have := hmono' _ _ h hc; rw [hk] at this; simp at this
        · have : k = l + (r - l) / 2 := by omega
          rw [← this, hk] at hc; simp at hc
    · simp

/-- **C56**, soundness: the name found for an account is one the table gives to exactly that account. -/
theorem C56_name_is_registered (table : List Baker) (pfx hash name : Bytes)
    (h : bakerLookupIn table pfx hash = some name) : ∃ b ∈ table, b.pfx = pfx ∧ b.hash = hash ∧ b.name = name := by
  unfold bakerLookupIn at h
  split at h
  · rename_i i hi
    have := (binarySearch_sound _ _ _ _ _ hi).1
    simp only [Option.map_eq_some_iff] at h
    obtain ⟨b, hb, rfl⟩ := h
    simp only [tableCmp, hb, Baker.cmp_eq] at this
    exact ⟨b, List.mem_of_getElem? hb, this.1, this.2, rfl⟩
  · simp at h

/-- The key of an entry: prefix and hash one after the other. -/
def Baker.key (b : Baker) : Bytes := b.pfx ++ b.hash

theorem bytesCmp_append {a b c d : Bytes} (h : a.length = b.length) :
    bytesCmp (a ++ c) (b ++ d) = match bytesCmp a b with | .eq => bytesCmp c d | o => o := by
  induction a generalizing b with
  | nil => cases b with
    | nil => simp [bytesCmp]
    | cons => simp at h
  | cons x xs ih =>
    cases b with
    | nil => simp at h
    | cons y ys =>
      simp only [List.cons_append, bytesCmp]
      split
      · rfl
      · split
        · rfl
        · exact ih (by simpa using h)

theorem bytesCmp_swap (a b : Bytes) : bytesCmp b a = (bytesCmp a b).swap := by
  induction a generalizing b with
  | nil => cases b <;> rfl
  | cons x xs ih =>
    cases b with
    | nil => rfl
    | cons y ys =>
      simp only [bytesCmp]
      split
      · rename_i h
        rw [if_neg (by intro h'; exact absurd (UInt8.lt_trans h h') (by simp))]
        rfl
      · split
        · rfl
        · exact ih ys

theorem bytesCmp_lt_trans {a b c : Bytes} (h1 : bytesCmp a b ≠ .gt) (h2 : bytesCmp b c = .lt) :
    bytesCmp a c = .lt := by
  induction a generalizing b c with
  | nil =>
    cases c with
    | nil => cases b <;> simp [bytesCmp] at h2
    | cons => rfl
  | cons x xs ih =>
    cases b with
    | nil => simp [bytesCmp] at h1
    | cons y ys =>
      cases c with
      | nil => simp [bytesCmp] at h2
      | cons z zs =>
        simp only [bytesCmp, UInt8.lt_iff_toNat_lt] at h1 h2 ⊢
        split at h1
        · split at h2
          · rw [if_pos (by omega)]
          · split at h2
            · simp at h2
            · rw [if_pos (by omega)]
        · split at h1
          · simp at h1
          · split at h2
            · rw [if_pos (by omega)]
            · split at h2
              · simp at h2
              · rw [if_neg (by omega), if_neg (by omega)]
                exact ih h1 h2

/-- **C56**, completeness: in a table sorted by prefix and hash every registered account is found. -/
theorem C56_registered_is_found (table : List Baker)
    (hpfx : ∀ b ∈ table, b.pfx.length = 3)
    (hsort : table.Pairwise fun a b => bytesCmp a.key b.key ≠ .gt)
    (b : Baker) (hb : b ∈ table) : (bakerLookupIn table b.pfx b.hash).isSome := by
  obtain ⟨k, hk, rfl⟩ := List.getElem_of_mem hb
  have hcmp : ∀ c ∈ table, c.cmp table[k].pfx table[k].hash = bytesCmp c.key table[k].key := by
    intro c hc
    unfold Baker.key
    rw [bytesCmp_append (by rw [hpfx c hc, hpfx _ hb])]
    rfl
  have hs := (List.pairwise_iff_getElem.mp hsort)
  have := binarySearch_complete (tableCmp table table[k].pfx table[k].hash) (table.length + 1) 0 table.length k (by omega)
    (by
      intro i j hij hj
      unfold tableCmp at hj ⊢
      cases hjt : table[j]? with
      | none => simp [hjt] at hj
      | some c =>
        obtain ⟨hjl, rfl⟩ := List.getElem?_eq_some_iff.mp hjt
        have hil : i < table.length := by omega
        simp only [List.getElem?_eq_getElem hjl, hcmp _ (List.getElem_mem hjl)] at hj
        simp only [List.getElem?_eq_getElem hil, hcmp _ (List.getElem_mem hil)]
        exact bytesCmp_lt_trans (hs i j hil hjl hij) hj)
    (by
      intro i j hij hi
      unfold tableCmp at hi ⊢
      cases hjt : table[j]? with
      | none => simp
      | some c =>
        obtain ⟨hjl, rfl⟩ := List.getElem?_eq_some_iff.mp hjt
        have hil : i < table.length := by omega
        simp only [List.getElem?_eq_getElem hil, hcmp _ (List.getElem_mem hil)] at hi
        simp only [hcmp _ (List.getElem_mem hjl)]
        have h1 : bytesCmp table[k].key table[i].key = .lt := by rw [bytesCmp_swap, hi]; rfl
        have h2 : bytesCmp table[k].key table[j].key = .lt := by
          by_contra hne
          cases hc : bytesCmp table[k].key table[j].key with
          | lt => exact hne hc
          | eq =>
            have he := bytesCmp_eq.mp hc
            have := hs i j hil hjl hij
            rw [← he, bytesCmp_swap, h1] at this
            exact this rfl
          | gt =>
            have h3 : bytesCmp table[j].key table[k].key = .lt := by rw [bytesCmp_swap, hc]; rfl
            have := bytesCmp_lt_trans (hs i j hil hjl hij) h3
            rw [hi] at this
            simp at this
        rw [bytesCmp_swap, h2]; rfl)
    (by simp only [tableCmp, List.getElem?_eq_getElem hk]; exact Baker.cmp_eq.mpr ⟨rfl, rfl⟩) (by omega) hk
  obtain ⟨i, hi⟩ := Option.isSome_iff_exists.mp this
  unfold bakerLookupIn
  rw [hi]
  have := (binarySearch_sound _ _ _ _ _ hi).2.2
  simp [this]

theorem knownBakers_pfx : ∀ b ∈ knownBakers, b.pfx.length = 3 := by decide +kernel

theorem knownBakers_sorted : knownBakers.Pairwise fun a b => bytesCmp a.key b.key ≠ .gt := by decide +kernel

/-- **C56**, both directions for the table of the app: the lookup answers exactly for the registered
accounts, with a name registered for that very account. -/
theorem C56_lookup (pfx hash : Bytes) :
    (∀ name, bakerLookup pfx hash = some name →
      ∃ b ∈ knownBakers, b.pfx = pfx ∧ b.hash = hash ∧ b.name = name) ∧
    (bakerLookup pfx hash = none → ∀ b ∈ knownBakers, ¬(b.pfx = pfx ∧ b.hash = hash)) := by
  refine ⟨fun name h => C56_name_is_registered _ _ _ _ h, ?_⟩
  rintro hn b hb ⟨rfl, rfl⟩
  have := C56_registered_is_found knownBakers knownBakers_pfx knownBakers_sorted b hb
  unfold bakerLookup at hn
  rw [hn] at this
  simp at this

/-- **C56, negated**: a name does not identify an account; two accounts are registered as `Tezos Japan`. -/
theorem C56_name_negation :
    ∃ h1 h2 : Bytes, h1.length = 20 ∧ h2.length = 20 ∧ h1 ≠ h2 ∧
      bakerLookup prefixTZ1 h1 = some (ascii "Tezos Japan") ∧
      bakerLookup prefixTZ1 h2 = some (ascii "Tezos Japan") := by
  refine ⟨[169, 189, 242, 62, 27, 165, 209, 228, 85, 60, 188, 183, 132, 147, 255, 132, 12, 65, 226, 11],
    [253, 89, 207, 6, 17, 126, 96, 158, 250, 248, 90, 191, 99, 216, 153, 156, 234, 132, 101, 66],
    ?_, ?_, ?_, ?_, ?_⟩
  all_goals decide +kernel

end Tezos
