import Verif.Spec.ParseFile
import Verif.Lemmas.Exported
import Verif.Props.C14
import Verif.Props.C18

/-!
# C59: fonts read from files

`ParseFromPath` and `ParseFromFS` return what `Parse` makes of the file, and close it. `ParseFromFS` does not close files
that it refuses before reading them, and none of them closes a file on which `Parse` panics.
-/

namespace C59
open Go Spec ParseBuf ParseModel FontModel ParseFile

/-- A font without error is returned exactly when the file can be opened, read and closed; it is the font of `Parse`. -/
theorem path_font (junk : Nat → UInt8) (file : File) (f : Font) :
    (parseFromPath junk file).ret = some (.font f, none) ↔
      file.openErr = none ∧ ParseModel.parse junk file.sig file.gz = .ok f ∧ file.closeErr = none := by
  unfold parseFromPath
  cases file.openErr with
  | some m => simp
  | none => cases ParseModel.parse junk file.sig file.gz <;> simp

/-- The same for `ParseFromFS`, which in addition limits the size of the file. -/
theorem fs_font (junk : Nat → UInt8) (file : File) (f : Font) :
    (parseFromFS junk file).ret = some (.font f, none) ↔
      file.openErr = none ∧ (∃ size, file.stat = .ok size ∧ size ≤ maxFontDataSize) ∧
        ParseModel.parse junk file.sig file.gz = .ok f ∧ file.closeErr = none := by
  unfold parseFromFS
  cases file.openErr with
  | some m => simp
  | none =>
    cases file.stat with
    | error m => simp
    | ok size =>
      dsimp only
      by_cases h : size > maxFontDataSize
      · rw [if_pos h]
        simp only [Option.some.injEq, Prod.mk.injEq, reduceCtorEq, false_and, Except.ok.injEq, true_and, false_iff]
        rintro ⟨⟨_, rfl, h'⟩, _⟩
        omega
      · rw [if_neg h]
        have h1 : ∃ s, (Except.ok size : Except String Int) = .ok s ∧ s ≤ maxFontDataSize := ⟨size, rfl, by omega⟩
        cases ParseModel.parse junk file.sig file.gz <;> simp only [h1] <;> simp

/-- Every error is returned: those of the file system, and those of `Parse` in preference to those of `Close`. -/
theorem path_error (junk : Nat → UInt8) (file : File) :
    (∀ m, file.openErr = some m → (parseFromPath junk file).ret = some (.null, some m)) ∧
    (file.openErr = none → ∀ m, ParseModel.parse junk file.sig file.gz = .err m →
      (parseFromPath junk file).ret = some (.null, some m)) ∧
    (file.openErr = none → ∀ f m, ParseModel.parse junk file.sig file.gz = .ok f → file.closeErr = some m →
      (parseFromPath junk file).ret = some (.font f, some m)) := by
  refine ⟨fun m h => ?_, fun h m h1 => ?_, fun h f m h1 h2 => ?_⟩ <;> simp [parseFromPath, *]

/-- The same for `ParseFromFS`; with an error of `Parse`, it returns the part of the font that was read. -/
theorem fs_error (junk : Nat → UInt8) (file : File) :
    (∀ m, file.openErr = some m → (parseFromFS junk file).ret = some (.null, some m)) ∧
    (file.openErr = none → ∀ m, file.stat = .error m → (parseFromFS junk file).ret = some (.null, some m)) ∧
    (file.openErr = none → ∀ size, file.stat = .ok size → (maxFontDataSize : Int) < size →
      (parseFromFS junk file).ret = some (.null, some "file size exceeds limit")) ∧
    (file.openErr = none → ∀ size, file.stat = .ok size → size ≤ maxFontDataSize →
      (∀ m, ParseModel.parse junk file.sig file.gz = .err m →
        (parseFromFS junk file).ret = some (.part, some m)) ∧
      (∀ f m, ParseModel.parse junk file.sig file.gz = .ok f → file.closeErr = some m →
        (parseFromFS junk file).ret = some (.font f, some m))) := by
  refine ⟨fun m h => ?_, fun h m h1 => ?_, fun h size h1 h2 => ?_, fun h size h1 h2 => ⟨fun m h3 => ?_, fun f m h3 h4 => ?_⟩⟩
  · simp [parseFromFS, *]
  · simp [parseFromFS, *]
  · simp only [parseFromFS, h, h1]
    rw [if_pos h2]
  · simp only [parseFromFS, h, h1, h3]
    rw [if_neg (by omega)]
  · simp only [parseFromFS, h, h1, h3, h4]
    rw [if_neg (by omega)]

/-- A file written with `Export` from a font made with a builder, and that can be opened and closed: both functions
return the font, whenever it has acceptable content and its data fits the end offsets and the limit. -/
theorem built {env : BuilderModel.Env} {b b' : BuilderModel.Builder} {f : Font} {file : File} {size : Int}
    (junk : Nat → UInt8) (hf : Fair env) (hz : ∃ k, 0 < k ∧ k < 256 ∧ env.predef k = env.predef 0)
    (hr : Reachable b) (h : b.build env = .ok (b', f)) (he : Exported f file.sig file.gz)
    (ht : SizesFit b' f) (ha : Acceptable b' f)
    (ho : file.openErr = none) (hc : file.closeErr = none) (hs : file.stat = .ok size) (hl : size ≤ maxFontDataSize) :
    (parseFromPath junk file).ret = some (.font f, none) ∧ (parseFromFS junk file).ret = some (.font f, none) := by
  have hp := (C18.parse_exact junk hf hz hr h he).2 ⟨ht, ha⟩
  exact ⟨(path_font junk file f).2 ⟨ho, hp, hc⟩, (fs_font junk file f).2 ⟨ho, ⟨size, hs, hl⟩, hp, hc⟩⟩

/-- `ParseFromPath` closes the file. Missing: when `Parse` panics (`panics_violated`). -/
theorem path_closes_partial (junk : Nat → UInt8) (file : File)
    (hp : (ParseModel.parse junk file.sig file.gz).isPanic = false) :
    Closes (parseFromPath junk file) (file.openErr = none) := by
  unfold parseFromPath
  cases h : file.openErr with
  | some m => exact ⟨fun h => (by cases h), fun _ => by simp⟩
  | none =>
    refine ⟨fun _ => ?_, fun h => absurd rfl h⟩
    cases h1 : ParseModel.parse junk file.sig file.gz with
    | panic m => rw [h1] at hp; cases hp
    | ok f => exact ⟨[.openFile, .parse], rfl, by decide⟩
    | err m => exact ⟨[.openFile, .parse], rfl, by decide⟩

/-- `ParseFromFS` closes the files that are not too large. Missing: the others (`leak_violated`). -/
theorem fs_closes_partial (junk : Nat → UInt8) (file : File) {size : Int} (hs : file.stat = .ok size)
    (hl : size ≤ maxFontDataSize) (hp : (ParseModel.parse junk file.sig file.gz).isPanic = false) :
    Closes (parseFromFS junk file) (file.openErr = none) := by
  unfold parseFromFS
  rw [hs]
  cases h : file.openErr with
  | some m => exact ⟨fun h => (by cases h), fun _ => by simp⟩
  | none =>
    refine ⟨fun _ => ?_, fun h => absurd rfl h⟩
    dsimp only
    rw [if_neg (by omega)]
    cases h1 : ParseModel.parse junk file.sig file.gz with
    | panic m => rw [h1] at hp; cases hp
    | ok f => exact ⟨[.openFile, .stat, .parse], rfl, by decide⟩
    | err m => exact ⟨[.openFile, .stat, .parse], rfl, by decide⟩

/-- Files that are too large, or whose size can't be told, are never closed by `ParseFromFS`. -/
theorem leak_violated (junk : Nat → UInt8) (file : File) (ho : file.openErr = none)
    (hs : (∃ m, file.stat = .error m) ∨ ∃ size, file.stat = .ok size ∧ (maxFontDataSize : Int) < size) :
    Call.openFile ∈ (parseFromFS junk file).calls ∧ Call.close ∉ (parseFromFS junk file).calls := by
  unfold parseFromFS
  rw [ho]
  rcases hs with ⟨m, hs⟩ | ⟨size, hs, h⟩ <;> rw [hs] <;> dsimp only
  · decide
  · rw [if_pos h]; decide

/-- No function closes the file when `Parse` panics. -/
theorem panics_violated (junk : Nat → UInt8) (file : File) (ho : file.openErr = none)
    (hp : (ParseModel.parse junk file.sig file.gz).isPanic = true) :
    Call.close ∉ (parseFromPath junk file).calls ∧ Call.close ∉ (parseFromFS junk file).calls := by
  unfold parseFromPath parseFromFS
  rw [ho]
  cases h : ParseModel.parse junk file.sig file.gz with
  | err m => rw [h] at hp; cases hp
  | ok f => rw [h] at hp; cases hp
  | panic m =>
    refine ⟨by simp, ?_⟩
    cases file.stat with
    | error m => simp
    | ok size => dsimp only; split <;> simp

/-- The file of `C14.never_panics_violated`. -/
example : (ParseModel.parse (fun _ => 0) ⟨[116, 103, 103, 102, 110, 116], .nil⟩
    (.ok ⟨[⟨tinyFont, .nil⟩, ⟨[7], .nil⟩], .eof⟩)).isPanic = true := by decide +kernel

/-- A file with a font, one with a wrong signature, and one that is too large. -/
example :
    ((parseFromFS (fun _ => 0) ⟨none, .ok 500, ⟨[116, 103, 103, 102, 110, 116], .nil⟩,
      .ok ⟨[⟨tinyFont, .nil⟩], .eof⟩, none⟩).calls = [.openFile, .stat, .parse, .close]) ∧
    parseFromPath (fun _ => 0) ⟨none, .ok 500, ⟨[116, 103, 103, 102, 110, 117], .nil⟩, .ok ⟨[], .eof⟩, none⟩ =
      ⟨[.openFile, .parse, .close], some (.null, some "invalid signature")⟩ ∧
    parseFromFS (fun _ => 0) ⟨none, .ok 40000000, ⟨[116, 103, 103, 102, 110, 116], .nil⟩,
      .ok ⟨[⟨tinyFont, .nil⟩], .eof⟩, none⟩ = ⟨[.openFile, .stat], some (.null, some "file size exceeds limit")⟩ := by
  refine ⟨by decide +kernel, by decide +kernel, by decide +kernel⟩

end C59
