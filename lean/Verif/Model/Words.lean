import Verif.Model.Builder

/-! # The predefined words, `words.go` -/

namespace FontModel
open Go

/-- `words.go:8-305`, `predefWords`. -/
def predefWords : List String :=
  ["undefined", "undefined", "undefined", "undefined", "undefined", "undefined", "undefined", "undefined",
   "undefined", "undefined", "fall", "autumn", "spring", "summer", "winter", "pixel", "ggfnt", "freezing",
   "frosty", "cold", "warm", "hot", "one", "two", "three", "four", "five", "six", "seven", "eight", "nine",
   "ten", "first", "second", "third", "fourth", "fifth", "sixth", "continuous", "connect", "glue", "glued",
   "disconnect", "join", "split", "separate", "nothing", "everything", "none", "all", "incomplete",
   "partial", "complete", "half", "halved", "apply", "disregard", "shallow", "deep", "omit", "include",
   "exclude", "full-width", "full-height", "squeezed", "ascending", "descending", "slant", "italic",
   "italicised", "slanted", "small", "big", "centered", "aligned", "center", "left", "right", "free",
   "hand", "geometric", "bouncy", "floaty", "serif", "sans", "sans-serif", "swash", "decorated", "icons",
   "words", "initials", "sterile", "clean", "basic", "small-caps", "unicase", "titling-caps",
   "petite-caps", "uppercase", "lowercase", "minimum", "low", "medium", "median", "average", "high",
   "maximum", "top", "bottom", "up", "down", "dye", "palette", "grayscale", "monochrome", "mono",
   "colored", "uncolored", "light", "gray", "dark", "opaque", "solid", "pattern", "semi", "open", "closed",
   "rotated", "straight", "perpendicular", "orthogonal", "sharp", "curved", "flat", "smooth", "rough",
   "thin", "wide", "thick", "compact", "spaced", "loose", "slim", "hollow", "inverted", "reversed",
   "inverse", "reverse", "weak", "strong", "hard", "soft", "simple", "minimal", "minimalistic", "complex",
   "advanced", "modern", "futuristic", "traditional", "vintage", "classic", "elegant", "formal", "serious",
   "professional", "informal", "casual", "playful", "funny", "quirky", "weird", "flashy", "edgy", "trendy",
   "whimsical", "romantic", "sensual", "cozy", "flowy", "flowery", "ornate", "normal", "regular",
   "tabular", "proportional", "lining", "oldstyle", "no-slash", "slash", "nil", "null", "undefined",
   "standby", "neutral", "manual", "automatic", "static", "dynamic", "animated", "default", "alt-A",
   "alt-B", "alt-C", "alt-D", "enabled", "disabled", "active", "inactive", "on", "off", "variant-A",
   "variant-B", "variant-C", "variant-D", "variant-E", "variant-F", "variant-G", "variant-H", "1", "2",
   "3", "4", "5", "6", "7", "8", "9", "10", "11", "12", "13", "14", "15", "16", "17", "18", "19", "20",
   "25", "30", "35", "40", "45", "50", "55", "60", "65", "70", "75", "80", "85", "90", "95", "99", "100"]

/-- `words.go:3-5`, `GetPredefinedWord`. The argument is a `uint8`, and there are 256 words. -/
def predefWord (i : Nat) : Bytes := BuilderModel.ascii (predefWords.getD i "")

end FontModel
