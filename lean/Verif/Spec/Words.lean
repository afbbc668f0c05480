import Verif.Model.Build

/-! # Words of the options of settings -/

namespace Spec
open Go BuilderModel

/-- Iterating over a map visits every key once, in some order. -/
structure Fair (env : Env) : Prop where
  organize : ∀ i l, (env.organizeOrder i l).Perm l
  ends : ∀ l, (env.wordEndsOrder l).Perm l
  words : ∀ l, (env.wordsOrder l).Perm l

/-- What `AddSetting` makes sure of. -/
structure SettingsOk (settings : List Setting) : Prop where
  count : settings.length ≤ 255
  name : ∀ s ∈ settings, s.name ≠ [] ∧ s.name.length ≤ 32
  options : ∀ s ∈ settings, s.options.length ≤ 255
  option : ∀ s ∈ settings, ∀ o ∈ s.options, o ≠ [] ∧ o.length ≤ 32

/-- One of the predefined words. -/
def Predefined (predef : Nat → Bytes) (w : Bytes) : Prop := ∃ i < 256, predef i = w

instance (predef : Nat → Bytes) (w : Bytes) : Decidable (Predefined predef w) :=
  decidable_of_iff ((List.range 256).any fun i => predef i == w) (by simp [Predefined])

/-- An option of some setting. -/
def IsOption (b : Builder) (w : Bytes) : Prop := ∃ s ∈ b.settings, w ∈ s.options

/-- All the options read back. -/
def OptionsRead (predef : Nat → Bytes) (b : Builder) (f : FontModel.Font) : Prop :=
  ∀ k (hk : k < b.settings.length) j (hj : j < b.settings[k].options.length),
    f.getOptionName predef k j = .ok b.settings[k].options[j]

/-- Both iterations over the stored words go in the order `o`. -/
def withOrder (env : Env) (o : List Bytes → List Bytes) : Env := { env with wordEndsOrder := o, wordsOrder := o }

end Spec
