import Verif.Spec.SampleBuilder
import Verif.Spec.Words
import Verif.Model.Words

/-! # Settings for the examples -/

namespace Sample
open Go BuilderModel Spec

/-- The real predefined words. Iterations go as the lists come. -/
def realEnv : Env := ⟨id, fun _ => id, id, id, FontModel.predefWord⟩

/-- One glyph and settings with the given options. -/
def withSettings (settings : List (String × List String)) : Builder :=
  val fresh (settings.foldlM (fun b x => do return (← b.addSetting (ascii x.1) (x.2.map ascii)).1) oneGlyph)

/-- The names of the options of a built font. -/
def optionNames (env : Env) (b : Builder) : Res (List (List Bytes)) := do
  let (_, f) ← b.build env
  mapRes (fun k => do
    let n ← f.getNumOptions k
    mapRes (fun j => f.getOptionName env.predef k j) (List.range n)) (List.range b.settings.length)

/-- Two settings and one option that is not predefined. -/
def oneWord : Builder := withSettings [("zero", ["off", "slashed-zero"]), ("case", ["small", "off", "slashed-zero", "big"])]

/-- Two options that are not predefined. -/
def twoWords : Builder := withSettings [("zero", ["dotted-zero", "slashed-zero"])]

end Sample
