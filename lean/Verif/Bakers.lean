import Verif.Nom
/-
The registry of known bakers (generated from rust/app/vendor/BakersRegistryCoreUnfilteredData.json by decoding
the addresses and sorting by prefix and hash, as rust/app-derive/src/unroll.rs 63-77 and 175-228 does at build
time) and the lookup in it.
-/
namespace Tezos

/-- An entry of the table of rust/app-derive/src/unroll.rs 127-133: address prefix, key hash, name (UTF-8). -/
structure Baker where
  pfx : Bytes
  hash : Bytes
  name : Bytes
  deriving DecidableEq, Repr

/-- rust/app-derive/src/unroll.rs 129-133: `KNOWN_BAKERS`. -/
def knownBakers : List Baker := [
  -- Tezos Seoul
  ⟨[6, 161, 159],
   [0, 47, 231, 219, 82, 24, 161, 214, 116, 200, 141, 217, 217, 66, 26, 198, 11, 142, 179, 229],
   [84, 101, 122, 111, 115, 32, 83, 101, 111, 117, 108]⟩,
  -- XTZ Master
  ⟨[6, 161, 159],
   [0, 58, 150, 112, 153, 1, 49, 154, 93, 162, 150, 135, 130, 39, 157, 174, 88, 27, 155, 164],
   [88, 84, 90, 32, 77, 97, 115, 116, 101, 114]⟩,
  -- Bakednode
  ⟨[6, 161, 159],
   [1, 74, 251, 78, 216, 68, 153, 129, 170, 191, 102, 99, 101, 239, 106, 86, 176, 78, 153, 86],
   [66, 97, 107, 101, 100, 110, 111, 100, 101]⟩,
  -- Ø Crypto Pool
  ⟨[6, 161, 159],
   [2, 208, 224, 46, 37, 58, 204, 142, 65, 93, 42, 184, 138, 111, 163, 27, 234, 56, 45, 6],
   [195, 152, 32, 67, 114, 121, 112, 116, 111, 32, 80, 111, 111, 108]⟩,
  -- HashQuark
  ⟨[6, 161, 159],
   [3, 219, 239, 53, 252, 222, 8, 74, 36, 108, 240, 205, 237, 185, 247, 163, 158, 77, 54, 104],
   [72, 97, 115, 104, 81, 117, 97, 114, 107]⟩,
  -- Tez-Baking
  ⟨[6, 161, 159],
   [5, 230, 153, 229, 235, 215, 154, 89, 25, 152, 161, 216, 179, 242, 147, 54, 108, 240, 11, 187],
   [84, 101, 122, 45, 66, 97, 107, 105, 110, 103]⟩,
  -- Stir Delegate
  ⟨[6, 161, 159],
   [7, 0, 193, 237, 121, 242, 94, 9, 172, 152, 215, 142, 181, 120, 238, 185, 192, 69, 95, 169],
   [83, 116, 105, 114, 32, 68, 101, 108, 101, 103, 97, 116, 101]⟩,
  -- TezoSteam
  ⟨[6, 161, 159],
   [7, 161, 97, 129, 237, 246, 16, 6, 253, 93, 72, 198, 72, 223, 79, 255, 31, 78, 137, 45],
   [84, 101, 122, 111, 83, 116, 101, 97, 109]⟩,
  -- Dash Master
  ⟨[6, 161, 159],
   [10, 155, 210, 179, 133, 200, 61, 121, 101, 93, 65, 254, 86, 50, 171, 238, 246, 120, 118, 84],
   [68, 97, 115, 104, 32, 77, 97, 115, 116, 101, 114]⟩,
  -- PayTezos
  ⟨[6, 161, 159],
   [10, 246, 179, 94, 104, 18, 177, 188, 134, 96, 163, 8, 39, 169, 121, 76, 152, 162, 248, 115],
   [80, 97, 121, 84, 101, 122, 111, 115]⟩,
  -- Tez Baker
  ⟨[6, 161, 159],
   [11, 167, 186, 208, 169, 248, 13, 16, 171, 244, 40, 11, 186, 132, 33, 99, 192, 91, 90, 3],
   [84, 101, 122, 32, 66, 97, 107, 101, 114]⟩,
  -- Blockpower
  ⟨[6, 161, 159],
   [12, 101, 98, 235, 5, 126, 119, 205, 30, 217, 48, 144, 99, 12, 140, 243, 147, 95, 231, 12],
   [66, 108, 111, 99, 107, 112, 111, 119, 101, 114]⟩,
  -- Stack Tezos
  ⟨[6, 161, 159],
   [17, 68, 43, 248, 78, 49, 229, 168, 160, 64, 245, 84, 55, 219, 1, 199, 8, 11, 32, 102],
   [83, 116, 97, 99, 107, 32, 84, 101, 122, 111, 115]⟩,
  -- AirGap
  ⟨[6, 161, 159],
   [18, 84, 143, 113, 153, 76, 178, 206, 24, 7, 45, 13, 203, 86, 143, 227, 95, 183, 73, 48],
   [65, 105, 114, 71, 97, 112]⟩,
  -- Tezmania
  ⟨[6, 161, 159],
   [19, 87, 134, 251, 158, 132, 123, 222, 221, 224, 27, 16, 23, 246, 104, 89, 145, 14, 137, 173],
   [84, 101, 122, 109, 97, 110, 105, 97]⟩,
  -- Morpheus Tezos
  ⟨[6, 161, 159],
   [20, 141, 70, 38, 39, 172, 38, 104, 229, 219, 205, 40, 13, 245, 203, 210, 138, 141, 64, 177],
   [77, 111, 114, 112, 104, 101, 117, 115, 32, 84, 101, 122, 111, 115]⟩,
  -- Everstake Legacy
  ⟨[6, 161, 159],
   [20, 168, 85, 18, 101, 38, 53, 75, 148, 115, 219, 205, 87, 57, 59, 24, 92, 154, 5, 161],
   [69, 118, 101, 114, 115, 116, 97, 107, 101, 32, 76, 101, 103, 97, 99, 121]⟩,
  -- Money every 3 days
  ⟨[6, 161, 159],
   [28, 108, 205, 152, 237, 100, 255, 100, 220, 1, 101, 10, 52, 249, 54, 21, 112, 99, 57, 92],
   [77, 111, 110, 101, 121, 32, 101, 118, 101, 114, 121, 32, 51, 32, 100, 97, 121, 115]⟩,
  -- Money Every 3 Days
  ⟨[6, 161, 159],
   [28, 108, 205, 152, 237, 100, 255, 100, 220, 1, 101, 10, 52, 249, 54, 21, 112, 99, 57, 92],
   [77, 111, 110, 101, 121, 32, 69, 118, 101, 114, 121, 32, 51, 32, 68, 97, 121, 115]⟩,
  -- Bake ꜩ For Me
  ⟨[6, 161, 159],
   [30, 126, 224, 210, 32, 77, 247, 203, 30, 118, 101, 86, 53, 104, 227, 160, 99, 66, 240, 172],
   [66, 97, 107, 101, 32, 234, 156, 169, 32, 70, 111, 114, 32, 77, 101]⟩,
  -- Tezos Kitchen
  ⟨[6, 161, 159],
   [34, 106, 86, 174, 22, 216, 211, 151, 189, 27, 193, 20, 16, 183, 238, 51, 108, 225, 255, 133],
   [84, 101, 122, 111, 115, 32, 75, 105, 116, 99, 104, 101, 110]⟩,
  -- Bake'n'Rolls
  ⟨[6, 161, 159],
   [34, 196, 90, 36, 203, 55, 218, 151, 190, 51, 76, 15, 112, 134, 95, 148, 108, 182, 144, 45],
   [66, 97, 107, 101, 39, 110, 39, 82, 111, 108, 108, 115]⟩,
  -- Gate.io
  ⟨[6, 161, 159],
   [34, 228, 10, 93, 202, 171, 186, 238, 105, 22, 93, 138, 80, 37, 177, 35, 239, 98, 200, 243],
   [71, 97, 116, 101, 46, 105, 111]⟩,
  -- P2P Validator
  ⟨[6, 161, 159],
   [37, 35, 37, 11, 39, 30, 21, 59, 230, 194, 102, 137, 84, 17, 75, 225, 1, 208, 77, 61],
   [80, 50, 80, 32, 86, 97, 108, 105, 100, 97, 116, 111, 114]⟩,
  -- XTZ Bakery I
  ⟨[6, 161, 159],
   [38, 112, 85, 94, 90, 202, 90, 119, 68, 172, 232, 141, 199, 7, 99, 240, 218, 181, 217, 76],
   [88, 84, 90, 32, 66, 97, 107, 101, 114, 121, 32, 73]⟩,
  -- Melange
  ⟨[6, 161, 159],
   [42, 101, 33, 54, 179, 91, 83, 248, 133, 157, 173, 157, 15, 22, 200, 143, 128, 69, 166, 189],
   [77, 101, 108, 97, 110, 103, 101]⟩,
  -- Tezos Panda
  ⟨[6, 161, 159],
   [43, 250, 152, 171, 95, 108, 67, 131, 194, 28, 1, 62, 223, 131, 103, 81, 41, 76, 46, 38],
   [84, 101, 122, 111, 115, 32, 80, 97, 110, 100, 97]⟩,
  -- Validators.com
  ⟨[6, 161, 159],
   [47, 55, 82, 227, 227, 255, 120, 243, 13, 188, 72, 115, 81, 181, 164, 85, 179, 82, 143, 70],
   [86, 97, 108, 105, 100, 97, 116, 111, 114, 115, 46, 99, 111, 109]⟩,
  -- YieldWallet.io
  ⟨[6, 161, 159],
   [49, 62, 143, 253, 131, 21, 158, 136, 161, 144, 47, 78, 81, 86, 252, 218, 36, 81, 236, 231],
   [89, 105, 101, 108, 100, 87, 97, 108, 108, 101, 116, 46, 105, 111]⟩,
  -- Fresh Tezos
  ⟨[6, 161, 159],
   [51, 137, 121, 111, 59, 124, 136, 59, 83, 177, 7, 27, 194, 131, 3, 171, 233, 185, 62, 120],
   [70, 114, 101, 115, 104, 32, 84, 101, 122, 111, 115]⟩,
  -- TezosSEAsia
  ⟨[6, 161, 159],
   [59, 205, 125, 5, 198, 13, 142, 75, 62, 74, 107, 70, 27, 190, 186, 24, 88, 219, 85, 86],
   [84, 101, 122, 111, 115, 83, 69, 65, 115, 105, 97]⟩,
  -- Staked
  ⟨[6, 161, 159],
   [60, 240, 180, 188, 249, 22, 36, 152, 25, 38, 131, 112, 42, 150, 220, 46, 30, 127, 159, 127],
   [83, 116, 97, 107, 101, 100]⟩,
  -- Tezos Alliance
  ⟨[6, 161, 159],
   [63, 162, 218, 199, 74, 154, 227, 51, 172, 161, 169, 229, 151, 17, 55, 11, 52, 123, 63, 254],
   [84, 101, 122, 111, 115, 32, 65, 108, 108, 105, 97, 110, 99, 101]⟩,
  -- Baking Tacos
  ⟨[6, 161, 159],
   [64, 27, 227, 173, 135, 168, 21, 182, 114, 8, 196, 181, 151, 38, 255, 65, 206, 204, 186, 252],
   [66, 97, 107, 105, 110, 103, 32, 84, 97, 99, 111, 115]⟩,
  -- Tezos Mars
  ⟨[6, 161, 159],
   [69, 208, 34, 242, 63, 80, 35, 129, 243, 82, 133, 248, 27, 193, 63, 36, 227, 126, 50, 236],
   [84, 101, 122, 111, 115, 32, 77, 97, 114, 115]⟩,
  -- Staking Team
  ⟨[6, 161, 159],
   [74, 210, 67, 208, 40, 66, 2, 73, 54, 96, 18, 128, 146, 153, 243, 178, 122, 252, 171, 229],
   [83, 116, 97, 107, 105, 110, 103, 32, 84, 101, 97, 109]⟩,
  -- Coinone
  ⟨[6, 161, 159],
   [75, 205, 14, 43, 75, 119, 125, 105, 249, 89, 161, 8, 59, 180, 44, 47, 54, 54, 72, 77],
   [67, 111, 105, 110, 111, 110, 101]⟩,
  -- Figment Networks
  ⟨[6, 161, 159],
   [76, 133, 100, 171, 88, 224, 183, 74, 109, 222, 229, 114, 21, 148, 186, 190, 143, 163, 54, 244],
   [70, 105, 103, 109, 101, 110, 116, 32, 78, 101, 116, 119, 111, 114, 107, 115]⟩,
  -- Hayek Lab
  ⟨[6, 161, 159],
   [78, 157, 74, 159, 119, 190, 47, 87, 239, 41, 24, 186, 114, 249, 164, 252, 183, 185, 37, 212],
   [72, 97, 121, 101, 107, 32, 76, 97, 98]⟩,
  -- Tezos Capital Legacy
  ⟨[6, 161, 159],
   [83, 26, 181, 118, 74, 41, 247, 124, 93, 64, 184, 10, 93, 164, 92, 132, 70, 143, 8, 161],
   [84, 101, 122, 111, 115, 32, 67, 97, 112, 105, 116, 97, 108, 32, 76, 101, 103, 97, 99, 121]⟩,
  -- Tezocracy
  ⟨[6, 161, 159],
   [87, 14, 61, 78, 11, 230, 155, 147, 22, 49, 190, 101, 215, 89, 152, 192, 135, 215, 215, 156],
   [84, 101, 122, 111, 99, 114, 97, 99, 121]⟩,
  -- XTZ Antipodes
  ⟨[6, 161, 159],
   [87, 108, 42, 182, 191, 205, 91, 223, 136, 203, 252, 7, 232, 31, 160, 254, 138, 137, 196, 6],
   [88, 84, 90, 32, 65, 110, 116, 105, 112, 111, 100, 101, 115]⟩,
  -- XTZ Bakery II
  ⟨[6, 161, 159],
   [89, 93, 88, 70, 182, 48, 6, 46, 31, 27, 75, 165, 93, 182, 3, 125, 76, 188, 223, 172],
   [88, 84, 90, 32, 66, 97, 107, 101, 114, 121, 32, 73, 73]⟩,
  -- Crypto Delegate
  ⟨[6, 161, 159],
   [89, 102, 120, 109, 163, 133, 28, 91, 36, 237, 60, 154, 128, 216, 58, 39, 145, 88, 136, 53],
   [67, 114, 121, 112, 116, 111, 32, 68, 101, 108, 101, 103, 97, 116, 101]⟩,
  -- Tezry
  ⟨[6, 161, 159],
   [95, 27, 225, 54, 55, 171, 240, 223, 203, 18, 104, 226, 216, 99, 240, 219, 8, 233, 166, 45],
   [84, 101, 122, 114, 121]⟩,
  -- Tez Patisserie
  ⟨[6, 161, 159],
   [96, 244, 114, 48, 94, 72, 202, 146, 211, 42, 186, 146, 199, 180, 141, 136, 160, 81, 228, 114],
   [84, 101, 122, 32, 80, 97, 116, 105, 115, 115, 101, 114, 105, 101]⟩,
  -- AlphaTezos
  ⟨[6, 161, 159],
   [98, 166, 117, 230, 59, 94, 140, 179, 74, 35, 201, 243, 96, 164, 44, 158, 44, 236, 49, 222],
   [65, 108, 112, 104, 97, 84, 101, 122, 111, 115]⟩,
  -- Stake House
  ⟨[6, 161, 159],
   [102, 237, 3, 95, 30, 142, 21, 59, 36, 152, 154, 88, 119, 215, 230, 26, 12, 40, 249, 42],
   [83, 116, 97, 107, 101, 32, 72, 111, 117, 115, 101]⟩,
  -- TezoShop
  ⟨[6, 161, 159],
   [103, 64, 152, 180, 250, 250, 49, 27, 54, 153, 190, 98, 113, 240, 198, 30, 192, 165, 205, 17],
   [84, 101, 122, 111, 83, 104, 111, 112]⟩,
  -- Shake 'n Bake
  ⟨[6, 161, 159],
   [103, 105, 241, 157, 17, 207, 35, 222, 109, 250, 63, 67, 188, 86, 191, 124, 225, 234, 148, 101],
   [83, 104, 97, 107, 101, 32, 39, 110, 32, 66, 97, 107, 101]⟩,
  -- Hyperblocks
  ⟨[6, 161, 159],
   [105, 195, 152, 121, 42, 74, 107, 60, 99, 242, 130, 79, 242, 195, 166, 227, 148, 211, 176, 166],
   [72, 121, 112, 101, 114, 98, 108, 111, 99, 107, 115]⟩,
  -- Tezos Tokyo
  ⟨[6, 161, 159],
   [108, 161, 59, 228, 132, 106, 135, 181, 97, 78, 160, 103, 193, 118, 218, 227, 201, 144, 18, 149],
   [84, 101, 122, 111, 115, 32, 84, 111, 107, 121, 111]⟩,
  -- Tezetetic
  ⟨[6, 161, 159],
   [109, 110, 182, 173, 158, 6, 177, 192, 205, 198, 163, 16, 33, 196, 49, 161, 174, 171, 185, 94],
   [84, 101, 122, 101, 116, 101, 116, 105, 99]⟩,
  -- Lucid Mining
  ⟨[6, 161, 159],
   [111, 37, 109, 222, 242, 59, 38, 67, 63, 151, 14, 133, 108, 31, 154, 234, 17, 52, 206, 228],
   [76, 117, 99, 105, 100, 32, 77, 105, 110, 105, 110, 103]⟩,
  -- TezTech Labs
  ⟨[6, 161, 159],
   [112, 120, 137, 166, 34, 51, 155, 92, 240, 68, 125, 135, 229, 249, 249, 63, 42, 56, 114, 81],
   [84, 101, 122, 84, 101, 99, 104, 32, 76, 97, 98, 115]⟩,
  -- POS Bakerz
  ⟨[6, 161, 159],
   [113, 115, 231, 211, 178, 15, 56, 164, 48, 239, 60, 38, 128, 0, 47, 3, 26, 62, 175, 196],
   [80, 79, 83, 32, 66, 97, 107, 101, 114, 122]⟩,
  -- Elite Tezos
  ⟨[6, 161, 159],
   [113, 200, 78, 93, 59, 242, 250, 170, 116, 39, 138, 95, 182, 27, 226, 39, 122, 224, 101, 116],
   [69, 108, 105, 116, 101, 32, 84, 101, 122, 111, 115]⟩,
  -- Tezgate
  ⟨[6, 161, 159],
   [114, 130, 62, 236, 145, 105, 185, 172, 205, 190, 227, 81, 240, 245, 68, 197, 53, 113, 254, 187],
   [84, 101, 122, 103, 97, 116, 101]⟩,
  -- 888 XTZ
  ⟨[6, 161, 159],
   [115, 173, 63, 61, 191, 94, 82, 237, 71, 46, 55, 231, 226, 160, 40, 33, 201, 60, 249, 49],
   [56, 56, 56, 32, 88, 84, 90]⟩,
  -- Happy Tezos
  ⟨[6, 161, 159],
   [115, 219, 59, 149, 92, 106, 126, 14, 45, 231, 12, 18, 110, 0, 21, 8, 73, 10, 47, 221],
   [72, 97, 112, 112, 121, 32, 84, 101, 122, 111, 115]⟩,
  -- ownBLOCK (OLD)
  ⟨[6, 161, 159],
   [124, 193, 27, 53, 54, 29, 48, 201, 226, 250, 21, 117, 16, 27, 168, 143, 10, 195, 21, 163],
   [111, 119, 110, 66, 76, 79, 67, 75, 32, 40, 79, 76, 68, 41]⟩,
  -- XTZ Delegate
  ⟨[6, 161, 159],
   [131, 196, 27, 143, 45, 183, 250, 68, 6, 151, 233, 41, 239, 197, 133, 134, 130, 121, 124, 12],
   [88, 84, 90, 32, 68, 101, 108, 101, 103, 97, 116, 101]⟩,
  -- Anonstake
  ⟨[6, 161, 159],
   [132, 87, 19, 156, 221, 54, 145, 81, 239, 95, 60, 60, 129, 71, 60, 102, 83, 30, 221, 91],
   [65, 110, 111, 110, 115, 116, 97, 107, 101]⟩,
  -- TezosBr
  ⟨[6, 161, 159],
   [139, 33, 209, 58, 171, 13, 142, 114, 83, 189, 40, 130, 124, 35, 132, 152, 160, 89, 9, 98],
   [84, 101, 122, 111, 115, 66, 114]⟩,
  -- Norn Delegate
  ⟨[6, 161, 159],
   [142, 113, 81, 126, 97, 167, 56, 134, 2, 6, 117, 2, 168, 194, 170, 49, 40, 13, 25, 96],
   [78, 111, 114, 110, 32, 68, 101, 108, 101, 103, 97, 116, 101]⟩,
  -- Tez Baguette
  ⟨[6, 161, 159],
   [143, 59, 187, 17, 67, 215, 164, 119, 158, 21, 29, 97, 19, 240, 73, 89, 190, 243, 215, 150],
   [84, 101, 122, 32, 66, 97, 103, 117, 101, 116, 116, 101]⟩,
  -- XTZ Land
  ⟨[6, 161, 159],
   [146, 187, 211, 188, 172, 83, 187, 108, 212, 87, 230, 45, 90, 64, 235, 230, 217, 106, 4, 36],
   [88, 84, 90, 32, 76, 97, 110, 100]⟩,
  -- Stake Capital
  ⟨[6, 161, 159],
   [147, 0, 251, 203, 115, 224, 221, 90, 67, 96, 254, 83, 248, 161, 82, 81, 123, 103, 201, 73],
   [83, 116, 97, 107, 101, 32, 67, 97, 112, 105, 116, 97, 108]⟩,
  -- Tezos Bay
  ⟨[6, 161, 159],
   [147, 208, 163, 118, 13, 188, 74, 62, 116, 129, 45, 33, 39, 62, 92, 82, 195, 78, 215, 60],
   [84, 101, 122, 111, 115, 32, 66, 97, 121]⟩,
  -- Ateza
  ⟨[6, 161, 159],
   [153, 69, 147, 163, 31, 135, 39, 126, 158, 140, 90, 152, 244, 83, 16, 34, 58, 221, 118, 164],
   [65, 116, 101, 122, 97]⟩,
  -- Tezz City
  ⟨[6, 161, 159],
   [153, 94, 14, 153, 26, 211, 153, 240, 92, 21, 211, 54, 83, 212, 167, 194, 137, 198, 0, 137],
   [84, 101, 122, 122, 32, 67, 105, 116, 121]⟩,
  -- TZ Bake
  ⟨[6, 161, 159],
   [154, 77, 223, 177, 98, 189, 255, 47, 125, 75, 205, 251, 163, 196, 27, 153, 197, 82, 152, 111],
   [84, 90, 32, 66, 97, 107, 101]⟩,
  -- SNZ Holding
  ⟨[6, 161, 159],
   [156, 148, 208, 111, 111, 194, 196, 90, 147, 39, 236, 124, 88, 22, 124, 166, 93, 121, 76, 152],
   [83, 78, 90, 32, 72, 111, 108, 100, 105, 110, 103]⟩,
  -- mamabaker
  ⟨[6, 161, 159],
   [160, 40, 242, 209, 8, 219, 86, 36, 185, 140, 17, 28, 35, 51, 67, 129, 252, 230, 238, 112],
   [109, 97, 109, 97, 98, 97, 107, 101, 114]⟩,
  -- Tezos Canada
  ⟨[6, 161, 159],
   [161, 31, 36, 160, 191, 15, 115, 127, 26, 8, 55, 231, 133, 196, 6, 3, 245, 217, 155, 170],
   [84, 101, 122, 111, 115, 32, 67, 97, 110, 97, 100, 97]⟩,
  -- Everstake
  ⟨[6, 161, 159],
   [162, 57, 242, 113, 51, 190, 245, 251, 102, 87, 127, 5, 242, 246, 44, 89, 66, 58, 177, 223],
   [69, 118, 101, 114, 115, 116, 97, 107, 101]⟩,
  -- View Nodes
  ⟨[6, 161, 159],
   [165, 100, 72, 91, 42, 150, 23, 214, 254, 153, 227, 128, 28, 161, 123, 72, 244, 183, 80, 126],
   [86, 105, 101, 119, 32, 78, 111, 100, 101, 115]⟩,
  -- LetzBake!
  ⟨[6, 161, 159],
   [166, 186, 184, 253, 61, 97, 133, 16, 154, 28, 143, 138, 244, 23, 1, 245, 56, 141, 199, 35],
   [76, 101, 116, 122, 66, 97, 107, 101, 33]⟩,
  -- Tezos Japan
  ⟨[6, 161, 159],
   [169, 189, 242, 62, 27, 165, 209, 228, 85, 60, 188, 183, 132, 147, 255, 132, 12, 65, 226, 11],
   [84, 101, 122, 111, 115, 32, 74, 97, 112, 97, 110]⟩,
  -- TezosRUs
  ⟨[6, 161, 159],
   [170, 21, 174, 200, 164, 55, 30, 109, 205, 0, 252, 117, 114, 181, 204, 104, 63, 33, 48, 163],
   [84, 101, 122, 111, 115, 82, 85, 115]⟩,
  -- Tezos Vote
  ⟨[6, 161, 159],
   [171, 184, 1, 144, 63, 171, 90, 32, 191, 59, 221, 241, 48, 94, 45, 5, 99, 120, 127, 110],
   [84, 101, 122, 111, 115, 32, 86, 111, 116, 101]⟩,
  -- Tezos Hot Bakery
  ⟨[6, 161, 159],
   [172, 70, 223, 63, 225, 250, 187, 140, 241, 70, 224, 209, 134, 107, 79, 19, 147, 133, 58, 161],
   [84, 101, 122, 111, 115, 32, 72, 111, 116, 32, 66, 97, 107, 101, 114, 121]⟩,
  -- Imma Baker
  ⟨[6, 161, 159],
   [173, 39, 28, 54, 85, 110, 203, 203, 61, 108, 28, 231, 127, 254, 26, 129, 85, 252, 79, 96],
   [73, 109, 109, 97, 32, 66, 97, 107, 101, 114]⟩,
  -- Tez Milk
  ⟨[6, 161, 159],
   [174, 227, 94, 64, 223, 86, 79, 40, 9, 51, 4, 204, 54, 14, 160, 243, 196, 141, 42, 56],
   [84, 101, 122, 32, 77, 105, 108, 107]⟩,
  -- Tezos Tacos
  ⟨[6, 161, 159],
   [176, 178, 128, 244, 89, 250, 170, 49, 73, 36, 26, 68, 135, 130, 149, 174, 8, 209, 117, 141],
   [84, 101, 122, 111, 115, 32, 84, 97, 99, 111, 115]⟩,
  -- Tz Bank
  ⟨[6, 161, 159],
   [176, 195, 192, 30, 224, 152, 99, 39, 149, 166, 127, 114, 108, 238, 155, 176, 110, 145, 229, 190],
   [84, 122, 32, 66, 97, 110, 107]⟩,
  -- TezosBC
  ⟨[6, 161, 159],
   [179, 242, 243, 253, 117, 241, 208, 61, 103, 55, 193, 75, 102, 199, 132, 180, 158, 30, 142, 24],
   [84, 101, 122, 111, 115, 66, 67]⟩,
  -- MyBakerSpace
  ⟨[6, 161, 159],
   [180, 195, 121, 83, 206, 82, 98, 80, 200, 80, 138, 117, 194, 18, 224, 78, 88, 149, 123, 126],
   [77, 121, 66, 97, 107, 101, 114, 83, 112, 97, 99, 101]⟩,
  -- Tz Bakery
  ⟨[6, 161, 159],
   [185, 44, 134, 233, 130, 206, 30, 230, 101, 43, 155, 196, 162, 255, 110, 222, 217, 242, 12, 244],
   [84, 122, 32, 66, 97, 107, 101, 114, 121]⟩,
  -- BAKER-IL
  ⟨[6, 161, 159],
   [185, 130, 50, 134, 128, 45, 146, 43, 75, 226, 75, 21, 248, 78, 106, 94, 131, 158, 145, 183],
   [66, 65, 75, 69, 82, 45, 73, 76]⟩,
  -- Mint Capital
  ⟨[6, 161, 159],
   [185, 238, 31, 62, 56, 211, 86, 41, 231, 189, 99, 206, 39, 30, 194, 84, 38, 126, 29, 113],
   [77, 105, 110, 116, 32, 67, 97, 112, 105, 116, 97, 108]⟩,
  -- Clutch Oven
  ⟨[6, 161, 159],
   [188, 58, 167, 252, 61, 198, 102, 242, 131, 203, 158, 31, 19, 219, 160, 88, 17, 208, 48, 232],
   [67, 108, 117, 116, 99, 104, 32, 79, 118, 101, 110]⟩,
  -- My Tezos Baking
  ⟨[6, 161, 159],
   [191, 112, 5, 38, 119, 126, 123, 232, 81, 154, 92, 55, 158, 201, 234, 115, 11, 39, 138, 3],
   [77, 121, 32, 84, 101, 122, 111, 115, 32, 66, 97, 107, 105, 110, 103]⟩,
  -- Steak.and.Bake
  ⟨[6, 161, 159],
   [194, 129, 191, 242, 12, 207, 114, 231, 89, 105, 169, 184, 37, 201, 14, 53, 51, 15, 131, 57],
   [83, 116, 101, 97, 107, 46, 97, 110, 100, 46, 66, 97, 107, 101]⟩,
  -- Coinhouse Staking Services
  ⟨[6, 161, 159],
   [197, 0, 3, 87, 145, 4, 119, 145, 198, 177, 6, 151, 83, 86, 2, 253, 124, 212, 254, 3],
   [67, 111, 105, 110, 104, 111, 117, 115, 101, 32, 83, 116, 97, 107, 105, 110, 103, 32, 83, 101, 114, 118, 105, 99, 101, 115]⟩,
  -- Tezzz
  ⟨[6, 161, 159],
   [198, 47, 109, 220, 152, 27, 137, 28, 183, 71, 236, 171, 109, 137, 149, 188, 41, 228, 1, 6],
   [84, 101, 122, 122, 122]⟩,
  -- Tezos Ninja
  ⟨[6, 161, 159],
   [198, 110, 13, 169, 187, 43, 180, 21, 95, 229, 34, 109, 28, 30, 239, 203, 131, 167, 38, 132],
   [84, 101, 122, 111, 115, 32, 78, 105, 110, 106, 97]⟩,
  -- Cryptium Labs
  ⟨[6, 161, 159],
   [204, 4, 230, 93, 62, 56, 228, 232, 5, 144, 65, 242, 122, 100, 156, 118, 99, 15, 149, 226],
   [67, 114, 121, 112, 116, 105, 117, 109, 32, 76, 97, 98, 115]⟩,
  -- Obsidian
  ⟨[6, 161, 159],
   [207, 73, 246, 107, 158, 161, 55, 225, 24, 24, 242, 167, 139, 75, 111, 201, 137, 91, 78, 80],
   [79, 98, 115, 105, 100, 105, 97, 110]⟩,
  -- Money every 3 days (OLD)
  ⟨[6, 161, 159],
   [208, 230, 126, 185, 59, 106, 203, 130, 244, 169, 249, 114, 140, 236, 50, 40, 51, 208, 208, 67],
   [77, 111, 110, 101, 121, 32, 101, 118, 101, 114, 121, 32, 51, 32, 100, 97, 121, 115, 32, 40, 79, 76, 68, 41]⟩,
  -- Bake Tz
  ⟨[6, 161, 159],
   [209, 45, 147, 117, 190, 195, 59, 155, 250, 183, 227, 7, 45, 230, 211, 255, 1, 228, 20, 230],
   [66, 97, 107, 101, 32, 84, 122]⟩,
  -- Baking Team
  ⟨[6, 161, 159],
   [215, 166, 90, 100, 115, 79, 218, 119, 55, 142, 5, 146, 95, 214, 33, 170, 169, 45, 199, 203],
   [66, 97, 107, 105, 110, 103, 32, 84, 101, 97, 109]⟩,
  -- Tezzieland
  ⟨[6, 161, 159],
   [217, 160, 198, 14, 11, 87, 24, 184, 186, 179, 191, 97, 28, 10, 79, 187, 171, 76, 29, 196],
   [84, 101, 122, 122, 105, 101, 108, 97, 110, 100]⟩,
  -- Tezos Bakery
  ⟨[6, 161, 159],
   [218, 116, 27, 23, 156, 155, 64, 91, 185, 134, 212, 55, 105, 128, 210, 41, 92, 250, 58, 98],
   [84, 101, 122, 111, 115, 32, 66, 97, 107, 101, 114, 121]⟩,
  -- Tezos.nu
  ⟨[6, 161, 159],
   [218, 213, 94, 130, 124, 112, 223, 150, 240, 188, 222, 118, 229, 34, 22, 95, 180, 60, 73, 102],
   [84, 101, 122, 111, 115, 46, 110, 117]⟩,
  -- Steaker
  ⟨[6, 161, 159],
   [222, 112, 67, 212, 7, 238, 151, 233, 177, 41, 13, 130, 99, 62, 24, 233, 170, 64, 211, 219],
   [83, 116, 101, 97, 107, 101, 114]⟩,
  -- StakeNow
  ⟨[6, 161, 159],
   [224, 217, 159, 96, 88, 223, 163, 110, 186, 102, 3, 86, 75, 47, 41, 9, 24, 234, 110, 167],
   [83, 116, 97, 107, 101, 78, 111, 119]⟩,
  -- Hodl.farm
  ⟨[6, 161, 159],
   [230, 189, 230, 116, 229, 18, 242, 253, 82, 25, 215, 147, 118, 126, 138, 154, 3, 136, 117, 131],
   [72, 111, 100, 108, 46, 102, 97, 114, 109]⟩,
  -- Airfoil
  ⟨[6, 161, 159],
   [231, 125, 197, 156, 76, 243, 211, 101, 228, 14, 208, 22, 150, 101, 249, 89, 17, 252, 236, 109],
   [65, 105, 114, 102, 111, 105, 108]⟩,
  -- Stakery
  ⟨[6, 161, 159],
   [232, 18, 135, 164, 9, 1, 233, 75, 180, 32, 181, 122, 24, 38, 1, 78, 97, 217, 115, 218],
   [83, 116, 97, 107, 101, 114, 121]⟩,
  -- Tezos Suisse
  ⟨[6, 161, 159],
   [236, 32, 36, 89, 20, 107, 185, 159, 38, 206, 37, 174, 169, 62, 5, 192, 201, 139, 227, 7],
   [84, 101, 122, 111, 115, 32, 83, 117, 105, 115, 115, 101]⟩,
  -- Tezos Chef
  ⟨[6, 161, 159],
   [239, 94, 117, 208, 15, 141, 68, 229, 180, 0, 200, 219, 127, 118, 193, 29, 198, 76, 71, 97],
   [84, 101, 122, 111, 115, 32, 67, 104, 101, 102]⟩,
  -- Tez Dispensery
  ⟨[6, 161, 159],
   [241, 213, 136, 66, 46, 117, 3, 126, 203, 214, 0, 105, 91, 140, 162, 152, 223, 31, 143, 225],
   [84, 101, 122, 32, 68, 105, 115, 112, 101, 110, 115, 101, 114, 121]⟩,
  -- Tz Envoy
  ⟨[6, 161, 159],
   [248, 132, 93, 210, 9, 23, 86, 81, 254, 193, 228, 84, 120, 244, 72, 115, 171, 241, 204, 187],
   [84, 122, 32, 69, 110, 118, 111, 121]⟩,
  -- Wetez
  ⟨[6, 161, 159],
   [249, 26, 39, 172, 129, 103, 166, 13, 139, 132, 192, 166, 50, 154, 242, 131, 55, 61, 225, 180],
   [87, 101, 116, 101, 122]⟩,
  -- Tezzigator Legacy
  ⟨[6, 161, 159],
   [251, 98, 134, 160, 149, 69, 140, 199, 164, 73, 89, 43, 50, 26, 94, 240, 251, 45, 111, 198],
   [84, 101, 122, 122, 105, 103, 97, 116, 111, 114, 32, 76, 101, 103, 97, 99, 121]⟩,
  -- Tezos Japan
  ⟨[6, 161, 159],
   [253, 89, 207, 6, 17, 126, 96, 158, 250, 248, 90, 191, 99, 216, 153, 156, 234, 132, 101, 66],
   [84, 101, 122, 111, 115, 32, 74, 97, 112, 97, 110]⟩,
  -- Coinbase Custody
  ⟨[6, 161, 159],
   [254, 156, 238, 227, 148, 178, 104, 128, 233, 120, 253, 64, 153, 103, 248, 192, 216, 76, 146, 58],
   [67, 111, 105, 110, 98, 97, 115, 101, 32, 67, 117, 115, 116, 111, 100, 121]⟩,
  -- TEZWHALE
  ⟨[6, 161, 159],
   [254, 216, 106, 194, 23, 46, 56, 65, 187, 61, 161, 238, 150, 156, 78, 97, 145, 99, 162, 174],
   [84, 69, 90, 87, 72, 65, 76, 69]⟩,
  -- Stake.fish
  ⟨[6, 161, 161],
   [75, 124, 64, 79, 212, 251, 207, 147, 28, 222, 10, 137, 113, 202, 247, 111, 83, 200, 229, 192],
   [83, 116, 97, 107, 101, 46, 102, 105, 115, 104]⟩,
  -- Tezos Capital
  ⟨[6, 161, 161],
   [167, 242, 255, 71, 98, 248, 242, 106, 172, 128, 34, 29, 115, 190, 103, 112, 157, 234, 29, 20],
   [84, 101, 122, 111, 115, 32, 67, 97, 112, 105, 116, 97, 108]⟩,
  -- Tezzigator
  ⟨[6, 161, 164],
   [156, 228, 162, 125, 184, 206, 125, 89, 214, 10, 68, 173, 62, 211, 208, 190, 120, 88, 158, 255],
   [84, 101, 122, 122, 105, 103, 97, 116, 111, 114]⟩,
  -- Ceibo XTZ
  ⟨[6, 161, 164],
   [163, 121, 18, 190, 221, 169, 249, 235, 217, 7, 63, 238, 178, 66, 239, 113, 251, 244, 150, 184],
   [67, 101, 105, 98, 111, 32, 88, 84, 90]⟩,
  -- At James
  ⟨[6, 161, 164],
   [194, 254, 152, 100, 42, 189, 11, 125, 212, 188, 15, 196, 46, 10, 95, 124, 135, 186, 86, 252],
   [65, 116, 32, 74, 97, 109, 101, 115]⟩,
  -- Eco Tez
  ⟨[6, 161, 164],
   [195, 11, 8, 32, 184, 92, 120, 191, 245, 187, 188, 47, 253, 253, 110, 100, 80, 182, 147, 180],
   [69, 99, 111, 32, 84, 101, 122]⟩]

/-- Lexicographic order of byte strings (`Ord for [u8]`). -/
def bytesCmp : Bytes → Bytes → Ordering
  | [], [] => .eq
  | [], _ :: _ => .lt
  | _ :: _, [] => .gt
  | a :: as, b :: bs => if a < b then .lt else if b < a then .gt else bytesCmp as bs

/-- rust/app-derive/src/unroll.rs 152-162: order of the entry `b` relative to the looked up key. -/
def Baker.cmp (b : Baker) (pfx hash : Bytes) : Ordering :=
  match bytesCmp b.pfx pfx with
  | .eq => bytesCmp b.hash hash
  | o => o

/-- `core::slice::binary_search_by` (since Rust 1.52) between `left` and `right`; the fuel bounds the number
of rounds, each of which shrinks the range. -/
def binarySearch (cmp : Nat → Ordering) : Nat → Nat → Nat → Option Nat
  | 0, _, _ => none
  | f + 1, left, right =>
    if left < right then
      let mid := left + (right - left) / 2
      match cmp mid with
      | .lt => binarySearch cmp f (mid + 1) right
      | .gt => binarySearch cmp f left mid
      | .eq => some mid
    else none

/-- Order of the `i`-th entry of the table relative to the looked up key. -/
def tableCmp (table : List Baker) (pfx hash : Bytes) (i : Nat) : Ordering :=
  match table[i]? with
  | some b => b.cmp pfx hash
  | none => .gt

/-- rust/app-derive/src/unroll.rs 135-168: `baker_lookup` in a given table. -/
def bakerLookupIn (table : List Baker) (pfx hash : Bytes) : Option Bytes :=
  match binarySearch (tableCmp table pfx hash) (table.length + 1) 0 table.length with
  | some i => (table[i]?).map Baker.name
  | none => none

/-- rust/app-derive/src/unroll.rs 135-168: `baker_lookup`. -/
def bakerLookup (pfx hash : Bytes) : Option Bytes := bakerLookupIn knownBakers pfx hash

end Tezos
