import Verif.Lemmas.RealWords
import Verif.Lemmas.BuiltWords
import Verif.Spec.SampleWords

/-!
# C40: setting and option names read back

Violated: the words of the options are stored in the order of an iteration over a Go map, not in the order of
their indices. With two options that are not among the predefined words, some order gives them back swapped.
Also a setting can be added and built without options, and asking for their number panics.

What holds for every order of iteration: the names of the settings, the numbers of options, and the names of the
options when at most one of them is not predefined. The predefined words are a parameter, of which it is only
asked that the first one occurs again (the first ten are the same).
-/

namespace C40
open Go Spec BuilderModel FontModel

attribute [local irreducible] Builder.builtinWords

/-- Names of settings and numbers of options, for every environment. -/
theorem names_and_numbers {env : Env} {b b' : Builder} {f : Font} (hs : SettingsOk b.settings)
    (h : b.build env = .ok (b', f)) :
    f.numSettings = .ok b.settings.length ∧ f.eachSetting = .ok (b.settings.map fun x => x.name) ∧
    ∀ k (hk : k < b.settings.length), b.settings[k].options ≠ [] →
      f.getNumOptions k = .ok b.settings[k].options.length := by
  obtain ⟨s, w, bi, h⟩ := build_parts h
  exact ⟨(numSettings_built h).1, settingNames_built h hs, fun k hk hne => (numOptions_built h hs.options hk hne).1⟩

example : (Sample.oneWord.build Sample.realEnv).isOk = true ∧
    Sample.oneWord.settings.map (fun x => (x.name, x.options.length)) = [(ascii "zero", 2), (ascii "case", 4)] := by
  rw [Sample.realEnv, predefWord_bytes]
  decide +kernel

/-- The settings come from `AddSetting`, and it gives their keys. -/
theorem added {b b' : Builder} {key : Nat} {name : Bytes} {options : List Bytes} (hs : SettingsOk b.settings)
    (h : b.addSetting name options = .ok (b', key)) :
    SettingsOk b'.settings ∧ b' = { b with settings := b.settings ++ [⟨name, options⟩] } ∧ key = b.settings.length :=
  addSetting_ok hs h

theorem added_first : SettingsOk [] := ⟨by simp, by simp, by simp, by simp⟩

example : Sample.fresh.addSetting (ascii "zero") [ascii "off", ascii "slashed-zero"] =
    .ok ({ Sample.fresh with settings := [⟨ascii "zero", [ascii "off", ascii "slashed-zero"]⟩] }, 0) := by decide +kernel

/-- The names of all options, whatever the order of the iterations. Missing: more than one word that is not
predefined, for which it does not hold (`order_violated`). -/
theorem options_partial {env : Env} (hf : Fair env) (hz : ∃ k, 0 < k ∧ k < 256 ∧ env.predef k = env.predef 0)
    {b b' : Builder} {f : Font} (hs : SettingsOk b.settings)
    (hone : ∀ v w, IsOption b v → IsOption b w → ¬ Predefined env.predef v → ¬ Predefined env.predef w → v = w)
    (h : b.build env = .ok (b', f)) : OptionsRead env.predef b f := by
  obtain ⟨s, w, bi, h⟩ := build_parts h
  obtain ⟨cust, st, h1, h2⟩ := words_built h hf hz
  have hc := h1 hone
  have key : ∀ {L : List Bytes}, L.Perm w.keys → L = cust := by
    intro L hL
    have hp := hL.trans st.perm
    match cust, hc with
    | [], _ => exact hp.eq_nil
    | [x], _ => exact List.perm_singleton.1 hp
  intro k hk j hj
  rcases option_built h hs st h2 (key (hf.ends _)) (key (hf.words _)) st.perm.symm hk hj with
    ⟨i, hi, _, he, hr⟩ | ⟨_, hr⟩
  · rw [hr, he]
  · exact hr

/-- The real table satisfies the hypothesis. -/
theorem real_words : ∃ k, 0 < k ∧ k < 256 ∧ predefWord k = predefWord 0 := ⟨1, by decide, by decide, by decide +kernel⟩

example : Fair Sample.realEnv ∧ ¬ Predefined predefWord (ascii "slashed-zero") ∧ Predefined predefWord (ascii "off") ∧
    Predefined predefWord (ascii "small") ∧ Predefined predefWord (ascii "big") ∧
    Sample.optionNames Sample.realEnv Sample.oneWord = .ok [[ascii "off", ascii "slashed-zero"],
      [ascii "small", ascii "off", ascii "slashed-zero", ascii "big"]] := by
  refine ⟨⟨fun _ _ => .refl _, fun _ => .refl _, fun _ => .refl _⟩, ?_⟩
  rw [Sample.realEnv, predefWord_bytes]
  decide +kernel

/-- For every table that can be built there is an order of the iterations over the stored words with which all the
options read back: that of their indices. -/
theorem good_order {env : Env} (hf : Fair env) (hz : ∃ k, 0 < k ∧ k < 256 ∧ env.predef k = env.predef 0)
    {b b' : Builder} {f : Font} (hs : SettingsOk b.settings) (h : b.build env = .ok (b', f)) :
    ∃ o f', Fair (withOrder env o) ∧ b.build (withOrder env o) = .ok (b', f') ∧ OptionsRead env.predef b f' := by
  obtain ⟨s, w, bi, h⟩ := build_parts h
  obtain ⟨cust, st, _, h2⟩ := words_built h hf hz
  obtain ⟨o, ho, hk⟩ := exists_order st.perm.symm
  obtain ⟨f', s', h'⟩ := h.reorder hf (ho w.keys)
  refine ⟨o, f', ⟨hf.organize, ho, ho⟩, h'.build, ?_⟩
  intro k hk' j hj
  rcases option_built (L := cust) h' hs st h2 hk hk st.perm.symm hk' hj with
    ⟨i, hi, _, he, hr⟩ | ⟨_, hr⟩
  · rw [he]; exact hr
  · exact hr

/-- With two different options that are not predefined some order of iteration makes `Build` succeed with a font in
which an option has the name of another one. -/
theorem order_violated {env : Env} (hf : Fair env) (hz : ∃ k, 0 < k ∧ k < 256 ∧ env.predef k = env.predef 0)
    {b b' : Builder} {f : Font} (hs : SettingsOk b.settings) {v x : Bytes} (hv : IsOption b v) (hx : IsOption b x)
    (hvx : v ≠ x) (hv' : ¬ Predefined env.predef v) (hx' : ¬ Predefined env.predef x)
    (h : b.build env = .ok (b', f)) :
    ∃ o f', Fair (withOrder env o) ∧ b.build (withOrder env o) = .ok (b', f') ∧
      ∃ k, ∃ hk : k < b.settings.length, ∃ j, ∃ hj : j < b.settings[k].options.length, ∃ y, IsOption b y ∧
        y ≠ b.settings[k].options[j] ∧ f'.getOptionName env.predef k j = .ok y := by
  obtain ⟨s, w, bi, h⟩ := build_parts h
  obtain ⟨cust, st, _, h2⟩ := words_built h hf hz
  have hvc := st.own v hv hv'
  have hxc := st.own x hx hx'
  match cust, st, hvc, hxc with
  | [], _, hvc, _ => simp at hvc
  | [y], _, hvc, hxc =>
    rw [List.mem_singleton] at hvc hxc
    exact absurd (hvc.trans hxc.symm) hvx
  | p :: q :: r, st, _, _ =>
    have hpq : p ≠ q := by
      have := st.nodup
      simp only [List.nodup_cons, List.mem_cons, not_or] at this
      exact this.1.1
    have hperm : (q :: p :: r).Perm w.keys := (List.Perm.swap p q r).trans st.perm.symm
    obtain ⟨o, ho, hk⟩ := exists_order hperm
    obtain ⟨f', s', h'⟩ := h.reorder hf (ho w.keys)
    obtain ⟨z, hz, hpz⟩ := st.option p (by simp)
    obtain ⟨k, hk', rfl⟩ := List.getElem_of_mem hz
    obtain ⟨j, hj, hjp⟩ := List.getElem_of_mem hpz
    refine ⟨o, f', ⟨hf.organize, ho, ho⟩, h'.build, k, hk', j, hj, q, st.option q (by simp), by rw [hjp]; exact hpq.symm, ?_⟩
    rcases option_built (L := q :: p :: r) h' hs st h2 hk hk hperm hk' hj with
      ⟨i, hi, _, he, hr⟩ | ⟨hn, _⟩
    · have hi0 : i = 0 := by
        rw [hjp] at he
        have e0 := st.index 0 (by simp)
        have ei := st.index i hi
        rw [← he, show p = (p :: q :: r)[0] from rfl, e0, Option.some.injEq] at ei
        omega
      subst hi0
      exact hr
    · rw [hjp] at hn
      exact absurd (by simp) hn

/-- With the real words: the same builder and two orders. -/
theorem swapped_violated :
    Sample.optionNames Sample.realEnv Sample.twoWords = .ok [[ascii "dotted-zero", ascii "slashed-zero"]] ∧
    Sample.optionNames (withOrder Sample.realEnv List.reverse) Sample.twoWords =
      .ok [[ascii "slashed-zero", ascii "dotted-zero"]] := by
  rw [Sample.realEnv, predefWord_bytes]
  exact ⟨by decide +kernel, by decide +kernel⟩

/-- The number of options of a setting without options can't be asked for. -/
theorem no_options_violated {env : Env} {b b' : Builder} {f : Font} (hs : SettingsOk b.settings)
    (h : b.build env = .ok (b', f)) {k : Nat} (hk : k < b.settings.length) (h0 : b.settings[k].options = []) :
    f.getNumOptions k = .panic "invalid font data" := by
  obtain ⟨s, w, bi, h⟩ := build_parts h
  exact noOptions_built h hs.options hk h0

example : ((Sample.withSettings [("zero", [])]).build Sample.realEnv).isOk = true := by decide +kernel

end C40
