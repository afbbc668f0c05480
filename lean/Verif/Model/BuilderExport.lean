import Verif.Model.Build
import Verif.Model.Export

/-! # Model of `Font.Export` of the builder -/

namespace BuilderModel
open Go

/-- What comes of an `Export`: the error (`none` for nil), what was handed to the given writer directly, and
what was handed to the `gzip.Writer` on top of it. -/
structure Exporting where
  error : Option String
  plain : Bytes
  zipped : Bytes
deriving DecidableEq

/-- `builder/font_builder.go:674-680`, `Export`. The builder is changed by `Build`; errors of `Build` are
returned, and its panics are panics. What became of the builder after an error of `Build` is left out (`none`). -/
def Builder.export (b : Builder) (env : Env) (raw gz : Bytes → FontModel.Written) (close : Option String) :
    Res (Option Builder × Exporting) :=
  match b.build env with
  | .ok (b', f) =>
    let r := f.export raw gz close
    .ok (some b', ⟨r.1, r.2.1, r.2.2⟩)
  | .err m => .ok (none, ⟨some m, [], []⟩)
  | .panic m => .panic m

end BuilderModel
