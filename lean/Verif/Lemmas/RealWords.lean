import Verif.Model.Words

/-!
# The predefined words as bytes

Strings are slow in the kernel.
-/

namespace FontModel
open Go BuilderModel

def wordBytes : List Bytes := [
  [117, 110, 100, 101, 102, 105, 110, 101, 100],
  [117, 110, 100, 101, 102, 105, 110, 101, 100],
  [117, 110, 100, 101, 102, 105, 110, 101, 100],
  [117, 110, 100, 101, 102, 105, 110, 101, 100],
  [117, 110, 100, 101, 102, 105, 110, 101, 100],
  [117, 110, 100, 101, 102, 105, 110, 101, 100],
  [117, 110, 100, 101, 102, 105, 110, 101, 100],
  [117, 110, 100, 101, 102, 105, 110, 101, 100],
  [117, 110, 100, 101, 102, 105, 110, 101, 100],
  [117, 110, 100, 101, 102, 105, 110, 101, 100],
  [102, 97, 108, 108],
  [97, 117, 116, 117, 109, 110],
  [115, 112, 114, 105, 110, 103],
  [115, 117, 109, 109, 101, 114],
  [119, 105, 110, 116, 101, 114],
  [112, 105, 120, 101, 108],
  [103, 103, 102, 110, 116],
  [102, 114, 101, 101, 122, 105, 110, 103],
  [102, 114, 111, 115, 116, 121],
  [99, 111, 108, 100],
  [119, 97, 114, 109],
  [104, 111, 116],
  [111, 110, 101],
  [116, 119, 111],
  [116, 104, 114, 101, 101],
  [102, 111, 117, 114],
  [102, 105, 118, 101],
  [115, 105, 120],
  [115, 101, 118, 101, 110],
  [101, 105, 103, 104, 116],
  [110, 105, 110, 101],
  [116, 101, 110],
  [102, 105, 114, 115, 116],
  [115, 101, 99, 111, 110, 100],
  [116, 104, 105, 114, 100],
  [102, 111, 117, 114, 116, 104],
  [102, 105, 102, 116, 104],
  [115, 105, 120, 116, 104],
  [99, 111, 110, 116, 105, 110, 117, 111, 117, 115],
  [99, 111, 110, 110, 101, 99, 116],
  [103, 108, 117, 101],
  [103, 108, 117, 101, 100],
  [100, 105, 115, 99, 111, 110, 110, 101, 99, 116],
  [106, 111, 105, 110],
  [115, 112, 108, 105, 116],
  [115, 101, 112, 97, 114, 97, 116, 101],
  [110, 111, 116, 104, 105, 110, 103],
  [101, 118, 101, 114, 121, 116, 104, 105, 110, 103],
  [110, 111, 110, 101],
  [97, 108, 108],
  [105, 110, 99, 111, 109, 112, 108, 101, 116, 101],
  [112, 97, 114, 116, 105, 97, 108],
  [99, 111, 109, 112, 108, 101, 116, 101],
  [104, 97, 108, 102],
  [104, 97, 108, 118, 101, 100],
  [97, 112, 112, 108, 121],
  [100, 105, 115, 114, 101, 103, 97, 114, 100],
  [115, 104, 97, 108, 108, 111, 119],
  [100, 101, 101, 112],
  [111, 109, 105, 116],
  [105, 110, 99, 108, 117, 100, 101],
  [101, 120, 99, 108, 117, 100, 101],
  [102, 117, 108, 108, 45, 119, 105, 100, 116, 104],
  [102, 117, 108, 108, 45, 104, 101, 105, 103, 104, 116],
  [115, 113, 117, 101, 101, 122, 101, 100],
  [97, 115, 99, 101, 110, 100, 105, 110, 103],
  [100, 101, 115, 99, 101, 110, 100, 105, 110, 103],
  [115, 108, 97, 110, 116],
  [105, 116, 97, 108, 105, 99],
  [105, 116, 97, 108, 105, 99, 105, 115, 101, 100],
  [115, 108, 97, 110, 116, 101, 100],
  [115, 109, 97, 108, 108],
  [98, 105, 103],
  [99, 101, 110, 116, 101, 114, 101, 100],
  [97, 108, 105, 103, 110, 101, 100],
  [99, 101, 110, 116, 101, 114],
  [108, 101, 102, 116],
  [114, 105, 103, 104, 116],
  [102, 114, 101, 101],
  [104, 97, 110, 100],
  [103, 101, 111, 109, 101, 116, 114, 105, 99],
  [98, 111, 117, 110, 99, 121],
  [102, 108, 111, 97, 116, 121],
  [115, 101, 114, 105, 102],
  [115, 97, 110, 115],
  [115, 97, 110, 115, 45, 115, 101, 114, 105, 102],
  [115, 119, 97, 115, 104],
  [100, 101, 99, 111, 114, 97, 116, 101, 100],
  [105, 99, 111, 110, 115],
  [119, 111, 114, 100, 115],
  [105, 110, 105, 116, 105, 97, 108, 115],
  [115, 116, 101, 114, 105, 108, 101],
  [99, 108, 101, 97, 110],
  [98, 97, 115, 105, 99],
  [115, 109, 97, 108, 108, 45, 99, 97, 112, 115],
  [117, 110, 105, 99, 97, 115, 101],
  [116, 105, 116, 108, 105, 110, 103, 45, 99, 97, 112, 115],
  [112, 101, 116, 105, 116, 101, 45, 99, 97, 112, 115],
  [117, 112, 112, 101, 114, 99, 97, 115, 101],
  [108, 111, 119, 101, 114, 99, 97, 115, 101],
  [109, 105, 110, 105, 109, 117, 109],
  [108, 111, 119],
  [109, 101, 100, 105, 117, 109],
  [109, 101, 100, 105, 97, 110],
  [97, 118, 101, 114, 97, 103, 101],
  [104, 105, 103, 104],
  [109, 97, 120, 105, 109, 117, 109],
  [116, 111, 112],
  [98, 111, 116, 116, 111, 109],
  [117, 112],
  [100, 111, 119, 110],
  [100, 121, 101],
  [112, 97, 108, 101, 116, 116, 101],
  [103, 114, 97, 121, 115, 99, 97, 108, 101],
  [109, 111, 110, 111, 99, 104, 114, 111, 109, 101],
  [109, 111, 110, 111],
  [99, 111, 108, 111, 114, 101, 100],
  [117, 110, 99, 111, 108, 111, 114, 101, 100],
  [108, 105, 103, 104, 116],
  [103, 114, 97, 121],
  [100, 97, 114, 107],
  [111, 112, 97, 113, 117, 101],
  [115, 111, 108, 105, 100],
  [112, 97, 116, 116, 101, 114, 110],
  [115, 101, 109, 105],
  [111, 112, 101, 110],
  [99, 108, 111, 115, 101, 100],
  [114, 111, 116, 97, 116, 101, 100],
  [115, 116, 114, 97, 105, 103, 104, 116],
  [112, 101, 114, 112, 101, 110, 100, 105, 99, 117, 108, 97, 114],
  [111, 114, 116, 104, 111, 103, 111, 110, 97, 108],
  [115, 104, 97, 114, 112],
  [99, 117, 114, 118, 101, 100],
  [102, 108, 97, 116],
  [115, 109, 111, 111, 116, 104],
  [114, 111, 117, 103, 104],
  [116, 104, 105, 110],
  [119, 105, 100, 101],
  [116, 104, 105, 99, 107],
  [99, 111, 109, 112, 97, 99, 116],
  [115, 112, 97, 99, 101, 100],
  [108, 111, 111, 115, 101],
  [115, 108, 105, 109],
  [104, 111, 108, 108, 111, 119],
  [105, 110, 118, 101, 114, 116, 101, 100],
  [114, 101, 118, 101, 114, 115, 101, 100],
  [105, 110, 118, 101, 114, 115, 101],
  [114, 101, 118, 101, 114, 115, 101],
  [119, 101, 97, 107],
  [115, 116, 114, 111, 110, 103],
  [104, 97, 114, 100],
  [115, 111, 102, 116],
  [115, 105, 109, 112, 108, 101],
  [109, 105, 110, 105, 109, 97, 108],
  [109, 105, 110, 105, 109, 97, 108, 105, 115, 116, 105, 99],
  [99, 111, 109, 112, 108, 101, 120],
  [97, 100, 118, 97, 110, 99, 101, 100],
  [109, 111, 100, 101, 114, 110],
  [102, 117, 116, 117, 114, 105, 115, 116, 105, 99],
  [116, 114, 97, 100, 105, 116, 105, 111, 110, 97, 108],
  [118, 105, 110, 116, 97, 103, 101],
  [99, 108, 97, 115, 115, 105, 99],
  [101, 108, 101, 103, 97, 110, 116],
  [102, 111, 114, 109, 97, 108],
  [115, 101, 114, 105, 111, 117, 115],
  [112, 114, 111, 102, 101, 115, 115, 105, 111, 110, 97, 108],
  [105, 110, 102, 111, 114, 109, 97, 108],
  [99, 97, 115, 117, 97, 108],
  [112, 108, 97, 121, 102, 117, 108],
  [102, 117, 110, 110, 121],
  [113, 117, 105, 114, 107, 121],
  [119, 101, 105, 114, 100],
  [102, 108, 97, 115, 104, 121],
  [101, 100, 103, 121],
  [116, 114, 101, 110, 100, 121],
  [119, 104, 105, 109, 115, 105, 99, 97, 108],
  [114, 111, 109, 97, 110, 116, 105, 99],
  [115, 101, 110, 115, 117, 97, 108],
  [99, 111, 122, 121],
  [102, 108, 111, 119, 121],
  [102, 108, 111, 119, 101, 114, 121],
  [111, 114, 110, 97, 116, 101],
  [110, 111, 114, 109, 97, 108],
  [114, 101, 103, 117, 108, 97, 114],
  [116, 97, 98, 117, 108, 97, 114],
  [112, 114, 111, 112, 111, 114, 116, 105, 111, 110, 97, 108],
  [108, 105, 110, 105, 110, 103],
  [111, 108, 100, 115, 116, 121, 108, 101],
  [110, 111, 45, 115, 108, 97, 115, 104],
  [115, 108, 97, 115, 104],
  [110, 105, 108],
  [110, 117, 108, 108],
  [117, 110, 100, 101, 102, 105, 110, 101, 100],
  [115, 116, 97, 110, 100, 98, 121],
  [110, 101, 117, 116, 114, 97, 108],
  [109, 97, 110, 117, 97, 108],
  [97, 117, 116, 111, 109, 97, 116, 105, 99],
  [115, 116, 97, 116, 105, 99],
  [100, 121, 110, 97, 109, 105, 99],
  [97, 110, 105, 109, 97, 116, 101, 100],
  [100, 101, 102, 97, 117, 108, 116],
  [97, 108, 116, 45, 65],
  [97, 108, 116, 45, 66],
  [97, 108, 116, 45, 67],
  [97, 108, 116, 45, 68],
  [101, 110, 97, 98, 108, 101, 100],
  [100, 105, 115, 97, 98, 108, 101, 100],
  [97, 99, 116, 105, 118, 101],
  [105, 110, 97, 99, 116, 105, 118, 101],
  [111, 110],
  [111, 102, 102],
  [118, 97, 114, 105, 97, 110, 116, 45, 65],
  [118, 97, 114, 105, 97, 110, 116, 45, 66],
  [118, 97, 114, 105, 97, 110, 116, 45, 67],
  [118, 97, 114, 105, 97, 110, 116, 45, 68],
  [118, 97, 114, 105, 97, 110, 116, 45, 69],
  [118, 97, 114, 105, 97, 110, 116, 45, 70],
  [118, 97, 114, 105, 97, 110, 116, 45, 71],
  [118, 97, 114, 105, 97, 110, 116, 45, 72],
  [49],
  [50],
  [51],
  [52],
  [53],
  [54],
  [55],
  [56],
  [57],
  [49, 48],
  [49, 49],
  [49, 50],
  [49, 51],
  [49, 52],
  [49, 53],
  [49, 54],
  [49, 55],
  [49, 56],
  [49, 57],
  [50, 48],
  [50, 53],
  [51, 48],
  [51, 53],
  [52, 48],
  [52, 53],
  [53, 48],
  [53, 53],
  [54, 48],
  [54, 53],
  [55, 48],
  [55, 53],
  [56, 48],
  [56, 53],
  [57, 48],
  [57, 53],
  [57, 57],
  [49, 48, 48]]

theorem predefWords_bytes : predefWords.map ascii = wordBytes := by decide +kernel

theorem predefWord_bytes : predefWord = fun i => wordBytes.getD i [] := by
  funext i
  rw [← predefWords_bytes, predefWord]
  simp only [List.getD_eq_getElem?_getD, List.getElem?_map]
  cases predefWords[i]? <;> rfl

end FontModel
