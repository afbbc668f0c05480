import Verif.Model.Font

/-! # Model of `Font.Export` -/

namespace FontModel
open Go

/-- The result of a `Write`: how many bytes were taken, and the error. -/
structure Written where
  n : Nat
  err : Option String

/-- `font.go:32-42`, `Export`. `raw` and `gz` are the methods `Write` of the given writer and of the
`gzip.Writer` on top of it, `close` is the error of `Close`. Returns the error (`none` for nil) and
what was handed to each writer. -/
def Font.export (f : Font) (raw gz : Bytes → Written) (close : Option String) :
    Option String × Bytes × Bytes :=
  let sig : Bytes := [116, 103, 103, 102, 110, 116]
  match (raw sig).err with
  | some m => (some m, sig, [])
  | none =>
    if (raw sig).n ≠ 6 then (some "short write", sig, []) else
    match (gz f.data).err with
    | some m => (some m, sig, f.data)
    | none =>
      if (gz f.data).n ≠ f.data.length then (some "short write", sig, f.data) else
      (close, sig, f.data)

end FontModel
