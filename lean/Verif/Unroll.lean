import Verif.Bakers
import Verif.Format
/-
What the macro `unroll!` makes of the registry of bakers when the app is built: rust/app-derive/src/unroll.rs.
Not modelled: reading the file and its JSON syntax (the crate `serde_json`); the generated Rust tokens, which spell out
the entries of the table one by one.
-/
namespace Tezos

/-- The bytes of a string, in UTF-8. -/
def text (s : String) : Bytes := s.toUTF8.data.toList

/-- rust/app-derive/src/unroll.rs 29-36: `KnownBaker`, an entry of the file. -/
structure KnownBaker where
  name : Bytes
  addr : Bytes
  deriving DecidableEq, Repr

/-- rust/app/vendor/BakersRegistryCoreUnfilteredData.json 1-502: the entries of the file, in its order. -/
def registryFile : List KnownBaker := [
  ⟨text "Obsidian", text "tz1eY5Aqa1kXDFoiebL28emyXFoneAoVg1zh"⟩,
  ⟨text "Tezos Capital Legacy", text "tz1TDSmoZXwVevLTEvKCTHWpomG76oC9S2fJ"⟩,
  ⟨text "Crypto Delegate", text "tz1Tnjaxk6tbAeC2TmMApPh8UsrEVQvhHvx5"⟩,
  ⟨text "Happy Tezos", text "tz1WCd2jm4uSt4vntk4vSuUWoZQGhLcDuR9q"⟩,
  ⟨text "At James", text "tz3e75hU4EhDU3ukyJueh5v6UvEHzGwkg3yC"⟩,
  ⟨text "Lucid Mining", text "tz1VmiY38m3y95HqQLjMwqnMS7sdMfGomzKi"⟩,
  ⟨text "P2P Validator", text "tz1P2Po7YM526ughEsRbY4oR9zaUPDZjxFrb"⟩,
  ⟨text "Bake'n'Rolls", text "tz1NortRftucvAkD1J58L32EhSVrQEWJCEnB"⟩,
  ⟨text "StakeNow", text "tz1g8vkmcde6sWKaG2NN9WKzCkDM6Rziq194"⟩,
  ⟨text "TezosBC", text "tz1c3Wh8gNMMsYwZd67JndQpYxdaaPUV27E7"⟩,
  ⟨text "XTZ Delegate", text "tz1Xek93iSXXckyQ6aYLVS5Rr2tge2en7ZxS"⟩,
  ⟨text "PayTezos", text "tz1Ldzz6k1BHdhuKvAtMRX7h5kJSMHESMHLC"⟩,
  ⟨text "Tezzigator", text "tz3adcvQaKXTCg12zbninqo3q8ptKKtDFTLv"⟩,
  ⟨text "My Tezos Baking", text "tz1d6Fx42mYgVFnHUW8T8A7WBfJ6nD9pVok8"⟩,
  ⟨text "LetzBake!", text "tz1aqcYgG6NuViML5vdWhohHJBYxcDVLNUsE"⟩,
  ⟨text "Bakednode", text "tz1KksC8RvjUWAbXYJuNrUbontHGor26Cztk"⟩,
  ⟨text "Tezgate", text "tz1W5VkdB5s7ENMESVBtwyt9kyvLqPcUczRT"⟩,
  ⟨text "BAKER-IL", text "tz1cYufsxHXJcvANhvS55h3aY32a9BAFB494"⟩,
  ⟨text "Stack Tezos", text "tz1MDKr36woXfVtrtXfV1ppPJERxPcm2wU6V"⟩,
  ⟨text "Stake.fish", text "tz2FCNBrERXtaTtNX6iimR1UJ5JSDxvdHM93"⟩,
  ⟨text "Everstake Legacy", text "tz1MXFrtZoaXckE41bjUCSjAjAap3AFDSr3N"⟩,
  ⟨text "Anonstake", text "tz1XhnCdVENzgko5x1MMswLHSoQbJ5NPwLZ6"⟩,
  ⟨text "Tezos Capital", text "tz2PdGc7U5tiyqPgTSgqCDct94qd6ovQwP6u"⟩,
  ⟨text "Ø Crypto Pool", text "tz1KtvGSYU5hdKD288a1koTBURWYuADJGrLE"⟩,
  ⟨text "Bake Tz", text "tz1ei4WtWEMEJekSv8qDnu9PExG6Q8HgRGr3"⟩,
  ⟨text "XTZ Antipodes", text "tz1TcH4Nb3aHNDJ7CGZhU7jgAK1BkSP4Lxds"⟩,
  ⟨text "Tezos Bakery", text "tz1fZ767VDbqx4DeKiFswPSHh513f51mKEUZ"⟩,
  ⟨text "Hayek Lab", text "tz1SohptP53wDPZhzTWzDUFAUcWF6DMBpaJV"⟩,
  ⟨text "Stakery", text "tz1go7f6mEQfT2xX2LuHAqgnRGN6c2zHPf5c"⟩,
  ⟨text "Gate.io", text "tz1NpWrAyDL9k2Lmnyxcgr9xuJakbBxdq7FB"⟩,
  ⟨text "Bake ꜩ For Me", text "tz1NRGxXV9h6SdNaZLcgmjuLx3hyy2f8YoGN"⟩,
  ⟨text "Mint Capital", text "tz1cb8xcmJWcdVU7cNAd93MfEReorvP52P8x"⟩,
  ⟨text "Tezmania", text "tz1MQJPGNMijnXnVoBENFz9rUhaPt3S7rWoz"⟩,
  ⟨text "XTZ Land", text "tz1Z1tMai15JWUWeN2PKL9faXXVPMuWamzJj"⟩,
  ⟨text "TezosBr", text "tz1YKh8T79LAtWxX29N5VedCSmaZGw9LNVxQ"⟩,
  ⟨text "Tezos Mars", text "tz1S1Aew75hMrPUymqenKfHo8FspppXKpW7h"⟩,
  ⟨text "View Nodes", text "tz1aiYKXmSRckyJ9EybKmpVry373rfyngJU8"⟩,
  ⟨text "Tezos Seoul", text "tz1Kf25fX1VdmYGSEzwFy1wNmkbSEZ2V83sY"⟩,
  ⟨text "AirGap", text "tz1MJx9vhaNRSimcuXPK2rW4fLccQnDAnVKJ"⟩,
  ⟨text "TezosRUs", text "tz1b9MYGrbN1NAxphLEsPPNT9JC7aNFc5nA4"⟩,
  ⟨text "Tezos Hot Bakery", text "tz1bLwpPfr3xqy1gWBF4sGvv8bLJyPHR11kx"⟩,
  ⟨text "TezoSteam", text "tz1LLNkQK4UQV6QcFShiXJ2vT2ELw449MzAA"⟩,
  ⟨text "Tezos Chef", text "tz1hThMBD8jQjFt78heuCnKxJnJtQo9Ao25X"⟩,
  ⟨text "Tz Bank", text "tz1bkg7rynMXVcjomoe3diB4URfv8GU2GAcw"⟩,
  ⟨text "HashQuark", text "tz1KzSC1J9aBxKp7u8TUnpN8L7S65PBRkgdF"⟩,
  ⟨text "Wetez", text "tz1iMAHAVpkCVegF9FLGWUpQQeiAHh4ffdLQ"⟩,
  ⟨text "Tez Baguette", text "tz1YhNsiRRU8aHNGg7NK3uuP6UDAyacJernB"⟩,
  ⟨text "Tezos Tacos", text "tz1bkKTY9Y3rTsHbpr2fbGUCRm736LLquQfM"⟩,
  ⟨text "Tz Bakery", text "tz1cX93Q3KsiTADpCC4f12TBvAmS5tw7CW19"⟩,
  ⟨text "Tez Baker", text "tz1Lhf4J9Qxoe3DZ2nfe8FGDnvVj7oKjnMY6"⟩,
  ⟨text "XTZ Master", text "tz1KfEsrtDaA1sX7vdM4qmEPWuSytuqCDp5j"⟩,
  ⟨text "Validators.com", text "tz1Pwgj6j55akKCyvTwwr9X4np1RskSXpQY4"⟩,
  ⟨text "Tezos Canada", text "tz1aKxnrzx5PXZJe7unufEswVRCMU9yafmfb"⟩,
  ⟨text "ownBLOCK (OLD)", text "tz1X1fpAZtwQk94QXUgZwfgsvkQgyc2KHp9d"⟩,
  ⟨text "Melange", text "tz1PWCDnz783NNGGQjEFFsHtrcK5yBW4E2rm"⟩,
  ⟨text "Airfoil", text "tz1gk3TDbU7cJuiBRMhwQXVvgDnjsxuWhcEA"⟩,
  ⟨text "XTZ Bakery I", text "tz1P9GwUWeAyPoT3ZwBc6gWCTP9exEPaVU3w"⟩,
  ⟨text "Tezzigator Legacy", text "tz1iZEKy4LaAjnTmn2RuGDf2iqdAQKnRi8kY"⟩,
  ⟨text "Tezocracy", text "tz1TaLYBeGZD3yKVHQGBM857CcNnFFNceLYh"⟩,
  ⟨text "MyBakerSpace", text "tz1c7pVR4w3KSQarJdBeh4NS2WxMUFBy1rHQ"⟩,
  ⟨text "Elite Tezos", text "tz1W1f1JrE7VsqgpUpj1iiDobqP5TixgZhDk"⟩,
  ⟨text "Tezzieland", text "tz1fUjvVhJrHLZCbhPNvDRckxApqbkievJHN"⟩,
  ⟨text "Tezos Bay", text "tz1Z7bxn1M4ewEWUekPaZfiwtKQRFroezUjY"⟩,
  ⟨text "888 XTZ", text "tz1WBfwbT66FC6BTLexc2BoyCCBM9LG7pnVW"⟩,
  ⟨text "Cryptium Labs", text "tz1eEnQhbwf6trb8Q8mPb2RaPkNk2rN7BKi8"⟩,
  ⟨text "Staked", text "tz1RCFbB9GpALpsZtu6J58sb74dm8qe6XBzv"⟩,
  ⟨text "Dash Master", text "tz1Lc87p6zRaDwzJs9kHvdpm7XzeWE8QTwVB"⟩,
  ⟨text "Tezos.nu", text "tz1fb7c66UwePkkfDXz4ajFaBP9hVNLdS7JJ"⟩,
  ⟨text "Tezos Japan", text "tz1b7YSEeNRqgmjuX4d4aiai2sQTF4A7WBZf"⟩,
  ⟨text "Blockpower", text "tz1LmaFsWRkjr7QMCx5PtV6xTUz3AmEpKQiF"⟩,
  ⟨text "Tez Patisserie", text "tz1UUgPwikRHW1mEyVZfGYy6QaxrY6Y7WaG5"⟩,
  ⟨text "TZ Bake", text "tz1Zhv3RkfU2pHrmaiDyxp7kFZpZrUCu1CiF"⟩,
  ⟨text "Coinbase Custody", text "tz1irJKkXS2DBWkU1NnmFQx1c1L7pbGg4yhk"⟩,
  ⟨text "TezosSEAsia", text "tz1R6Ej25VSerE3MkSoEEeBjKHCDTFbpKuSX"⟩,
  ⟨text "Tezzz", text "tz1dhwJY5B1jKdkF7zcyu1v6EBEQjpGmAp1E"⟩,
  ⟨text "Tezz City", text "tz1Zcxkfa5jKrRbBThG765GP29bUCU3C4ok5"⟩,
  ⟨text "Tezos Tokyo", text "tz1VYQpZvjVhv1CdcENuCNWJQXu1TWBJ8KTD"⟩,
  ⟨text "Tez Milk", text "tz1bakeKFwqmtLBzghw8CFnqFvRxLj849Vfg"⟩,
  ⟨text "Norn Delegate", text "tz1YdCPrYbksK7HCoYKDyzgfXwY16Fy9rrGa"⟩,
  ⟨text "Tezos Panda", text "tz1PeZx7FXy7QRuMREGXGxeipb24RsMMzUNe"⟩,
  ⟨text "Steaker", text "tz1fvBC1cHJzPtUW3ZKd2GZDj7P4XVuLk9vW"⟩,
  ⟨text "TezTech Labs", text "tz1Vtimi84kLh9RANfRVX2JvYtP4NPCT1aFm"⟩,
  ⟨text "Fresh Tezos", text "tz1QLXqnfN51dkjeghXvKHkJfhvGiM5gK4tc"⟩,
  ⟨text "SNZ Holding", text "tz1ZuxNqUk7odhMC4Bfx2NXXeej9ReXKewa8"⟩,
  ⟨text "Tezry", text "tz1UJvHTgpVzcKWhTazGxVcn5wsHru5Gietg"⟩,
  ⟨text "Ceibo XTZ", text "tz3bEQoFCZEEfZMskefZ8q8e4eiHH1pssRax"⟩,
  ⟨text "Hyperblocks", text "tz1VHFxUuBhwopxC9YC9gm5s2MHBHLyCtvN1"⟩,
  ⟨text "Coinone", text "tz1SYq214SCBy9naR6cvycQsYcUGpBqQAE8d"⟩,
  ⟨text "Stake House", text "tz1V2FYediKBAEaTpXXJBSjuQpjkyCzrTSiE"⟩,
  ⟨text "Imma Baker", text "tz1bRaSjKZrSrSeQHBDiCqjKXqtZYZM1t8FW"⟩,
  ⟨text "POS Bakerz", text "tz1Vyuu4EJ5Nym4JcrfRLnp3hpaq1DSEp1Ke"⟩,
  ⟨text "Tezos Suisse", text "tz1hAYfexyzPGG6RhZZMpDvAHifubsbb6kgn"⟩,
  ⟨text "Baking Tacos", text "tz1RV1MBbZMR68tacosb7Mwj6LkbPSUS1er1"⟩,
  ⟨text "Hodl.farm", text "tz1gg5bjopPcr9agjamyu9BbXKLibNc2rbAq"⟩,
  ⟨text "Tezos Ninja", text "tz1djEKk6j1FqigTgbRsunbnY9BB7qsn1aAQ"⟩,
  ⟨text "Clutch Oven", text "tz1coHzgoQYRu1Ezn5QChfFEjwTrBzGNQT6U"⟩,
  ⟨text "Tezetetic", text "tz1VceyYUpq1gk5dtp6jXQRtCtY8hm5DKt72"⟩,
  ⟨text "Tezos Vote", text "tz1bHzftcTKZMTZgLLtnrXydCm6UEqf4ivca"⟩,
  ⟨text "Tez-Baking", text "tz1LBEKXaxQbd5Gtzbc1ATCwc3pppu81aWGc"⟩,
  ⟨text "XTZ Bakery II", text "tz1TnYeuR4HhUTapQiXvzcjmcpvZYwR1B5S3"⟩,
  ⟨text "Tz Envoy", text "tz1iJ4qgGTzyhaYEzd1RnC6duEkLBd1nzexh"⟩,
  ⟨text "Tezos Kitchen", text "tz1Nn14BBsDULrPXtkM9UQeXaE4iqJhmqmK5"⟩,
  ⟨text "Shake 'n Bake", text "tz1V4qCyvPKZ5UeqdH14HN42rxvNPQfc9UZg"⟩,
  ⟨text "Stir Delegate", text "tz1LH4L6XYT2JNPhvWYC4Zq3XEiGgEwzNRvo"⟩,
  ⟨text "Stake Capital", text "tz1Z3KCf8CLGAYfvVWPEr562jDDyWkwNF7sT"⟩,
  ⟨text "Figment Networks", text "tz1Scdr2HsZiQjc7bHMeBbmDRXYVvdhjJbBh"⟩,
  ⟨text "TEZWHALE", text "tz1isXamBXpTUgbByQ6gXgZQg4GWNW7r6rKE"⟩,
  ⟨text "Money every 3 days (OLD)", text "tz1egbN6RK2bM5vt4aAZw6r9j4nL8z49bPdS"⟩,
  ⟨text "Money every 3 days", text "tz1NEKxGEHsFufk87CVZcrqWu8o22qh46GK6"⟩,
  ⟨text "mamabaker", text "tz1aEsrxrhTYNcg897HjSWnJ5yjR95pxVD1d"⟩,
  ⟨text "TezoShop", text "tz1V3yg82mcrPJbegqVCPn6bC8w1CSTRp3f8"⟩,
  ⟨text "Tezos Alliance", text "tz1RSWMYKGAykpizFteowByYMueCYv9TMn1L"⟩,
  ⟨text "Coinhouse Staking Services", text "tz1dbfppLAAxXZNtf2SDps7rch3qfUznKSoK"⟩,
  ⟨text "Steak.and.Bake", text "tz1dNVDWPf3Q59SdJqnjdnu277iyvReiRS9M"⟩,
  ⟨text "AlphaTezos", text "tz1UdeKoMJivgqRgRUNzroMwRJYmJY8BtaWe"⟩,
  ⟨text "Tezos Japan", text "tz1ijdEfmUoQXJfSiKCLRioeCfSrKP3sVsff"⟩,
  ⟨text "Tez Dispensery", text "tz1hgjLqCZWCtarByUMYd81F4FKRY5t1V978"⟩,
  ⟨text "Ateza", text "tz1ZcTRk5uxD86EFEn1vvNffWWqJy7q5eVhc"⟩,
  ⟨text "YieldWallet.io", text "tz1Q8QkSBS63ZQnH3fBTiAMPes9R666Rn6Sc"⟩,
  ⟨text "Staking Team", text "tz1STeamwbp68THcny9zk3LsbG3H36DMvbRK"⟩,
  ⟨text "Morpheus Tezos", text "tz1MWhSr4oT8W67CKdxduqp4bkVyF32qsERK"⟩,
  ⟨text "Baking Team", text "tz1fJHFn6sWEd3NnBPngACuw2dggTv6nQZ7g"⟩,
  ⟨text "Everstake", text "tz1aRoaRhSpRYvFdyvgWLL6TGyRoGF51wDjM"⟩,
  ⟨text "Money Every 3 Days", text "tz1NEKxGEHsFufk87CVZcrqWu8o22qh46GK6"⟩,
  ⟨text "Eco Tez", text "tz3e7LbZvUtoXhpUD1yb6wuFodZpfYRb9nWJ"⟩]

/-! ### The external crate `bs58`, decoding -/

/-- The digit that a character stands for; `none` is an error (`NonAsciiCharacter`, `InvalidCharacter`). -/
def base58Digit (c : UInt8) : Option Nat :=
  let i := base58Alphabet.findIdx (· == c)
  if i < 58 then some i else none

/-- One round of the crate's loop: multiply the number collected so far (least significant byte first) by 58 and add
the carry. -/
def timesPlus : Nat → List Nat → List Nat
  | carry, [] => digitsLE 256 8 carry
  | carry, x :: xs => (carry + x * 58) % 256 :: timesPlus ((carry + x * 58) / 256) xs

/-- The loop over the characters. -/
def base58Loop : List Nat → Bytes → Option (List Nat)
  | acc, [] => some acc
  | acc, c :: cs =>
    match base58Digit c with
    | none => none
    | some d => base58Loop (timesPlus d acc) cs

/-- The external crate function `bs58::decode(..).into_vec()`: a zero byte for each leading `1`. The vector has as many
bytes as the text has characters, which is always enough. -/
def base58Decode (t : Bytes) : Option Bytes :=
  match base58Loop [] t with
  | none => none
  | some acc => some ((acc ++ List.replicate (t.takeWhile (· == 49)).length 0).reverse.map UInt8.ofNat)

/-! ### The macro -/

/-- How the build fails: an error naming the entry, or a panic of the macro. -/
inductive BuildErr where
  | base58 (entry : Nat)
  | panic
  deriving DecidableEq, Repr

/-- rust/app-derive/src/unroll.rs 63-77: `ReducedBaker::try_from`; `array_ref!` panics when there are fewer than 27
bytes, and further bytes are ignored, as is the checksum. -/
def KnownBaker.reduce (i : Nat) (e : KnownBaker) : Except BuildErr Baker :=
  match base58Decode e.addr with
  | none => .error (.base58 i)
  | some b => if b.length < 27 then .error .panic else .ok ⟨slice b 0 3, slice b 3 20, e.name⟩

/-- rust/app-derive/src/unroll.rs 200-204: all entries, up to the first that fails. -/
def reduceAll : Nat → List KnownBaker → Except BuildErr (List Baker)
  | _, [] => .ok []
  | i, e :: es => e.reduce i >>= fun b => reduceAll (i + 1) es >>= fun bs => .ok (b :: bs)

/-- `Vec::dedup` after an entry `a`: drops entries equal to the one before. -/
def dedupFrom (a : Baker) : List Baker → List Baker
  | [] => [a]
  | b :: l => if b = a then dedupFrom a l else a :: dedupFrom b l

/-- `Vec::dedup`. -/
def dedupBakers : List Baker → List Baker
  | [] => []
  | a :: l => dedupFrom a l

/-- Insertion before the first entry that is not smaller (rust/app-derive/src/unroll.rs 46-55: `cmp`). -/
def insertBaker (b : Baker) : List Baker → List Baker
  | [] => [b]
  | c :: l => if b.cmp c.pfx c.hash = .gt then c :: insertBaker b l else b :: c :: l

/-- `Vec::sort`, which is stable; modelled as insertion sort. -/
def sortBakers (l : List Baker) : List Baker := l.foldr insertBaker []

/-- rust/app-derive/src/unroll.rs 175-228: `retrieve_data`, from the entries of the file to the table. -/
def unrollTable (es : List KnownBaker) : Except BuildErr (List Baker) :=
  reduceAll 0 es >>= fun v => .ok (sortBakers (dedupBakers v))

end Tezos
