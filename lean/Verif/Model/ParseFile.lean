import Verif.Model.Parse

/-!
# Model of `ParseFromFS` and `ParseFromPath` (`parse.go:14-44`)

A file system is what the calls return; runs keep the calls that were made. The reads of `Parse` are one entry.
-/

namespace ParseFile
open Go ParseBuf ParseModel FontModel

/-- Calls of the file system. -/
inductive Call
  | openFile
  | stat
  | parse
  | close
deriving DecidableEq, Repr

/-- What the calls return: `Open` (or the error), `Stat` (the size of the file or the error), the reads (the first
one and what `gzip.NewReader` makes of the rest), and `Close`. -/
structure File where
  openErr : Option String
  stat : Except String Int
  sig : Ev
  gz : Res Reader
  closeErr : Option String

/-- The returned font: nil, one that was not read completely, or the font. -/
inductive Ret
  | null
  | part
  | font (f : Font)
deriving DecidableEq, Repr

/-- A run: the calls, and the returned font and error unless it panics. -/
structure Run where
  calls : List Call
  ret : Option (Ret × Option String)
deriving DecidableEq, Repr

/-- `parse.go:15-30`, `ParseFromFS`. -/
def parseFromFS (junk : Nat → UInt8) (file : File) : Run :=
  match file.openErr with
  | some m => ⟨[.openFile], some (.null, some m)⟩
  | none =>
    match file.stat with
    | .error m => ⟨[.openFile, .stat], some (.null, some m)⟩
    | .ok size =>
      if size > maxFontDataSize then ⟨[.openFile, .stat], some (.null, some "file size exceeds limit")⟩ else
      match ParseModel.parse junk file.sig file.gz with
      | .panic _ => ⟨[.openFile, .stat, .parse], none⟩
      | .err m => ⟨[.openFile, .stat, .parse, .close], some (.part, some m)⟩
      | .ok f => ⟨[.openFile, .stat, .parse, .close], some (.font f, file.closeErr)⟩

/-- `parse.go:34-44`, `ParseFromPath`. -/
def parseFromPath (junk : Nat → UInt8) (file : File) : Run :=
  match file.openErr with
  | some m => ⟨[.openFile], some (.null, some m)⟩
  | none =>
    match ParseModel.parse junk file.sig file.gz with
    | .panic _ => ⟨[.openFile, .parse], none⟩
    | .ok f => ⟨[.openFile, .parse, .close], some (.font f, file.closeErr)⟩
    | .err m => ⟨[.openFile, .parse, .close], some (.null, some m)⟩

end ParseFile
