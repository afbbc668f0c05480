import Verif.Lemmas.Document
import Verif.Lemmas.DocumentBuilt
import Verif.Lemmas.DocumentSample

/-!
# C60: fonts are what the format specification says

The demands of `specification.md` are those of `Spec.Demand`.
-/

namespace C60
open Go FontModel BuilderModel ParseModel ParseBuf Spec

/-- What `Parse` makes sure of. -/
def enforced : List Demand :=
  [.name, .vertLayout, .ascent, .vertInterspacing, .colorSections, .colors, .switchCount, .size]

/-- These demands hold for all fonts that `Parse` accepts. -/
theorem parse_enforces_partial {f : Font} (h : Accepted f) : ∀ d ∈ enforced, d.Holds f := by
  obtain ⟨stop, t, _, hs⟩ := accepted_tolerated h
  obtain ⟨c1, c2, c3, c4, c5, c6, c7, c8, c9, c10, c11, c12, _⟩ := t.checks
  intro d hd
  simp only [enforced, List.mem_cons, List.not_mem_nil, or_false] at hd
  rcases hd with rfl | rfl | rfl | rfl | rfl | rfl | rfl | rfl
  · exact c1.name
  · have := c2.vert; simp only [Demand.Holds]; omega
  · have := c2.ascent; simp only [Demand.Holds]; omega
  · have := c2.vertInterspacing; simp only [Demand.Holds]; omega
  · exact c5
  · have c : 0 < nPalettes f.data f → usedColors f.data f.offDyes + paletteColors f.data f ≤ 255 := fun hx => (c4 hx).1
    have b : usedColors f.data f.offDyes ≤ 255 := by
      have := UInt8.toNat_lt (f.data.getD (f.offDyes + byteAt f.data f.offDyes) 0)
      unfold usedColors
      split
      · omega
      · simp only [byteAt] at this ⊢; omega
    have e : usedColors f.data f.offDyes = if nDyes f.data f = 0 then 0 else dyeColors f.data f := rfl
    simp only [Demand.Holds]
    rw [← e]
    split <;> omega
  · simp only [Demand.Holds, nSwitches]; omega
  · exact hs

/-- All others are violated by fonts that `Parse` accepts. -/
theorem parse_violated : ∀ d : Demand, d ∉ enforced → ∃ f, Accepted f ∧ ¬ d.Holds f := by
  intro d hd
  have key : ∀ {i : Nat} {v : UInt8} {d : Demand},
      ((fullFont.set i v ≠ [] ∧ (fullFont.set i v).length ≤ 1024) ∧
        parseStream (fun _ => 0) ⟨[⟨fullFont.set i v, .nil⟩], .eof⟩ = .ok (fullWith i v)) →
      ¬ d.Holds (fullWith i v) → ∃ f, Accepted f ∧ ¬ d.Holds f := fun ha hn => ⟨_, accepted_one ha.1 ha.2, hn⟩
  cases d with
  | format => exact key (i := 0) (v := 2) (by decide +kernel) (by simp only [Demand.Holds]; decide +kernel)
  | name | vertLayout | ascent | vertInterspacing | colorSections | colors | switchCount | size =>
    exact absurd (by decide) hd
  | glyphCount =>
    refine ⟨manyFont 56790, manyFont_accepted (by omega) (by omega), ?_⟩
    simp only [Demand.Holds, (manyFont_wellFormed (n := 56790) (by omega) (by omega)).2]
    omega
  | switchCases =>
    exact ⟨casesParsed, accepted_one (D := casesFont) (by decide +kernel) (by decide +kernel),
      by simp only [Demand.Holds]; decide +kernel⟩
  | ending =>
    exact ⟨{ tinyParsed with data := tinyFont.take 70, offVertKern := 69 },
      accepted_one (D := tinyFont.take 70) (by decide +kernel) (by decide +kernel),
      by simp only [Demand.Holds]; decide +kernel⟩
  | glyphNames =>
    exact key (i := 102) (v := 49) (by decide +kernel) fun h => Names.not_basic (c := 49) (s := [97]) (by decide)
      ((by decide +kernel : glyphNameAt (fullWith 102 49) 0 = [49, 97]) ▸ h 0 (by decide +kernel))
  | words =>
    exact key (i := 134) (v := 49) (by decide +kernel) fun h => Names.not_basic (c := 49) (s := [105]) (by decide)
      ((by decide +kernel : wordAt (fullWith 134 49) 0 = [49, 105]) ▸ h 0 (by decide +kernel))
  | settingNames =>
    exact key (i := 145) (v := 49) (by decide +kernel) fun h => Names.not_basic (c := 49) (s := []) (by decide)
      ((by decide +kernel : settingNameAt (fullWith 145 49) 0 = [49]) ▸ h 0 (by decide +kernel))
  | dates =>
    exact key (i := 18) (v := 0) (by decide +kernel)
      (by simp only [Demand.Holds, Table.Ordered, DateNested]; decide +kernel)
  | extraAscent =>
    exact key (i := 39) (v := 7) (by decide +kernel)
      (by simp only [Demand.Holds, Table.Ordered, DateNested]; decide +kernel)
  | vertLineWidth =>
    exact key (i := 36) (v := 0) (by decide +kernel)
      (by simp only [Demand.Holds, Table.Ordered, DateNested]; decide +kernel)
  | vertLineGap =>
    exact key (i := 36) (v := 0) (by decide +kernel)
      (by simp only [Demand.Holds, Table.Ordered, DateNested]; decide +kernel)
  | vertKerning =>
    exact key (i := 36) (v := 0) (by decide +kernel)
      (by simp only [Demand.Holds, Table.Ordered, DateNested]; decide +kernel)
  | glyphNameOrder =>
    exact key (i := 102) (v := 122) (by decide +kernel)
      (by simp only [Demand.Holds, Table.Ordered, DateNested]; decide +kernel)
  | namedGlyphs =>
    exact key (i := 92) (v := 3) (by decide +kernel)
      (by simp only [Demand.Holds, Table.Ordered, DateNested]; decide +kernel)
  | options =>
    exact key (i := 153) (v := 255) (by decide +kernel)
      (by simp only [Demand.Holds, Table.Ordered, DateNested]; decide +kernel)
  | switchSettings =>
    exact key (i := 164) (v := 2) (by decide +kernel)
      (by simp only [Demand.Holds, Table.Ordered, DateNested]; decide +kernel)
  | codePoints =>
    exact key (i := 167) (v := 67) (by decide +kernel)
      (by simp only [Demand.Holds, Table.Ordered, DateNested]; decide +kernel)
  | mappingSwitch =>
    exact key (i := 181) (v := 100) (by decide +kernel)
      (by simp only [Demand.Holds, Table.Ordered, DateNested]; decide +kernel)
  | conditionTerms =>
    exact key (i := 196) (v := 1) (by decide +kernel)
      (by simp only [Demand.Holds, Table.Ordered, DateNested]; decide +kernel)
  | horzPairs =>
    exact key (i := 300) (v := 2) (by decide +kernel)
      (by simp only [Demand.Holds, Table.Ordered, DateNested]; decide +kernel)
  | vertPairs =>
    exact key (i := 313) (v := 2) (by decide +kernel)
      (by simp only [Demand.Holds, Table.Ordered, DateNested]; decide +kernel)
  | ends t =>
    cases t with
    | dyeAlphas =>
      exact key (i := 50) (v := 255) (by decide +kernel)
        (by simp only [Demand.Holds, Table.Ordered, DateNested]; decide +kernel)
    | dyeNames =>
      exact key (i := 55) (v := 255) (by decide +kernel)
        (by simp only [Demand.Holds, Table.Ordered, DateNested]; decide +kernel)
    | paletteColors =>
      exact key (i := 67) (v := 255) (by decide +kernel)
        (by simp only [Demand.Holds, Table.Ordered, DateNested]; decide +kernel)
    | paletteNames =>
      exact key (i := 81) (v := 255) (by decide +kernel)
        (by simp only [Demand.Holds, Table.Ordered, DateNested]; decide +kernel)
    | glyphNames =>
      exact key (i := 96) (v := 255) (by decide +kernel)
        (by simp only [Demand.Holds, Table.Ordered, DateNested]; decide +kernel)
    | masks =>
      exact key (i := 107) (v := 255) (by decide +kernel)
        (by simp only [Demand.Holds, Table.Ordered, DateNested]; decide +kernel)
    | words =>
      exact key (i := 130) (v := 255) (by decide +kernel)
        (by simp only [Demand.Holds, Table.Ordered, DateNested]; decide +kernel)
    | settingNames =>
      exact key (i := 141) (v := 255) (by decide +kernel)
        (by simp only [Demand.Holds, Table.Ordered, DateNested]; decide +kernel)
    | settings =>
      exact key (i := 148) (v := 255) (by decide +kernel)
        (by simp only [Demand.Holds, Table.Ordered, DateNested]; decide +kernel)
    | switches =>
      exact key (i := 158) (v := 255) (by decide +kernel)
        (by simp only [Demand.Holds, Table.Ordered, DateNested]; decide +kernel)
    | mapping =>
      exact key (i := 175) (v := 255) (by decide +kernel)
        (by simp only [Demand.Holds, Table.Ordered, DateNested]; decide +kernel)
    | conditions =>
      exact key (i := 192) (v := 255) (by decide +kernel)
        (by simp only [Demand.Holds, Table.Ordered, DateNested]; decide +kernel)
    | utf8Sets =>
      exact key (i := 204) (v := 255) (by decide +kernel)
        (by simp only [Demand.Holds, Table.Ordered, DateNested]; decide +kernel)
    | glyphSets =>
      exact key (i := 222) (v := 255) (by decide +kernel)
        (by simp only [Demand.Holds, Table.Ordered, DateNested]; decide +kernel)
    | utf8Rules =>
      exact key (i := 237) (v := 255) (by decide +kernel)
        (by simp only [Demand.Holds, Table.Ordered, DateNested]; decide +kernel)
    | glyphRules =>
      exact key (i := 270) (v := 255) (by decide +kernel)
        (by simp only [Demand.Holds, Table.Ordered, DateNested]; decide +kernel)
  | ruleCondition u =>
    cases u with
    | true =>
      exact key (i := 243) (v := 100) (by decide +kernel)
        (by simp only [Demand.Holds, Table.Ordered, DateNested]; decide +kernel)
    | false =>
      exact key (i := 276) (v := 100) (by decide +kernel)
        (by simp only [Demand.Holds, Table.Ordered, DateNested]; decide +kernel)
  | ruleBody u =>
    cases u with
    | true =>
      exact key (i := 245) (v := 0) (by decide +kernel)
        (by simp only [Demand.Holds, Table.Ordered, DateNested]; decide +kernel)
    | false =>
      exact key (i := 278) (v := 0) (by decide +kernel)
        (by simp only [Demand.Holds, Table.Ordered, DateNested]; decide +kernel)
  | ruleOutput u =>
    cases u with
    | true =>
      exact key (i := 247) (v := 2) (by decide +kernel)
        (by simp only [Demand.Holds, Table.Ordered, DateNested]; decide +kernel)
    | false =>
      exact key (i := 280) (v := 2) (by decide +kernel)
        (by simp only [Demand.Holds, Table.Ordered, DateNested]; decide +kernel)
  | ruleBlocks u =>
    cases u with
    | true =>
      exact key (i := 244) (v := 255) (by decide +kernel)
        (by simp only [Demand.Holds, Table.Ordered, DateNested]; decide +kernel)
    | false =>
      exact key (i := 277) (v := 255) (by decide +kernel)
        (by simp only [Demand.Holds, Table.Ordered, DateNested]; decide +kernel)
  | ruleSize u =>
    cases u with
    | true =>
      exact key (i := 238) (v := 255) (by decide +kernel)
        (by simp only [Demand.Holds, Table.Ordered, DateNested]; decide +kernel)
    | false =>
      exact key (i := 271) (v := 255) (by decide +kernel)
        (by simp only [Demand.Holds, Table.Ordered, DateNested]; decide +kernel)

/-- Both together: these are all the demands that accepted fonts are sure to meet. -/
theorem parse_exact (d : Demand) : d ∈ enforced ↔ ∀ f, Accepted f → d.Holds f := by
  refine ⟨fun hd f h => parse_enforces_partial h d hd, fun h => Classical.byContradiction fun hd => ?_⟩
  obtain ⟨f, ha, hn⟩ := parse_violated d hd
  exact hn (h f ha)

/-- The font that was changed is accepted, and everything but the format version is as demanded. -/
theorem full_met : Accepted fullParsed ∧ ∀ d : Demand, d ≠ .format → d.Holds fullParsed := by
  have ha : Accepted fullParsed := accepted_one (D := fullFont) (by decide +kernel) (by decide +kernel)
  have one : ∀ {c : UInt8}, Names.Alnum c → ∀ p ∈ [[c]], Names.Part p := fun h p hp => by
    rw [List.mem_singleton.1 hp]; exact Names.part_of (Or.inl ⟨by simp, by simpa using h⟩)
  have dash : ∀ {c : UInt8}, Names.Alnum c → ∀ p ∈ [[45, c]], Names.Part p := fun h p hp => by
    rw [List.mem_singleton.1 hp]; exact Names.part_of (Or.inr ⟨_, rfl, by simp, by simpa using h⟩)
  refine ⟨ha, ?_⟩
  intro d hd
  cases d with
  | format => exact absurd rfl hd
  | name | vertLayout | ascent | vertInterspacing | colorSections | colors | switchCount | size =>
    exact parse_enforces_partial ha _ (by decide)
  | glyphNames =>
    intro i hi
    have hi : i < 2 := hi
    match i, hi with
    | 0, _ =>
      rw [show glyphNameAt fullParsed 0 = [97, 97] by decide +kernel]
      exact ⟨by decide, 97, [[97]], rfl, by decide, one (by decide)⟩
    | 1, _ =>
      rw [show glyphNameAt fullParsed 1 = [98, 45, 49] by decide +kernel]
      exact ⟨by decide, 98, [[45, 49]], rfl, by decide, dash (by decide)⟩
  | words =>
    intro i hi
    have hi : i < 2 := hi
    match i, hi with
    | 0, _ =>
      rw [show wordAt fullParsed 0 = [104, 105] by decide +kernel]
      exact ⟨by decide, 104, [[105]], rfl, by decide, one (by decide)⟩
    | 1, _ =>
      rw [show wordAt fullParsed 1 = [111, 110, 45, 50] by decide +kernel]
      exact ⟨by decide, 111, [[110], [45, 50]], rfl, by decide,
        fun p hp => (List.mem_cons.1 hp).elim (fun e => e ▸ one (by decide) _ (List.mem_singleton.2 rfl)) (dash (by decide) p)⟩
  | settingNames =>
    intro i hi
    have hi : i < 2 := hi
    match i, hi with
    | 0, _ =>
      rw [show settingNameAt fullParsed 0 = [97] by decide +kernel]
      exact ⟨by decide, 97, [], rfl, by decide, by simp⟩
    | 1, _ =>
      rw [show settingNameAt fullParsed 1 = [98, 99] by decide +kernel]
      exact ⟨by decide, 98, [[99]], rfl, by decide, one (by decide)⟩
  | ends t => cases t <;> (simp only [Demand.Holds, Table.Ordered, DateNested]; decide +kernel)
  | ruleCondition u | ruleBody u | ruleOutput u | ruleBlocks u | ruleSize u =>
    cases u <;> (simp only [Demand.Holds]; decide +kernel)
  | _ => simp only [Demand.Holds, DateNested]; decide +kernel

/-- What `Build` does not make sure of. -/
def broken : List Demand :=
  [.format, .name, .vertInterspacing, .vertLineWidth, .vertLineGap, .glyphNames, .words, .settingNames, .options,
   .switchCases, .ruleOutput false, .vertKerning]

/-- All other demands hold for all fonts that are built, as long as names of colors, masks and mapping do not
exceed what their end offsets can express. Missing: those of `broken`, and dates, which depend on the clock. -/
theorem build_keeps_partial {env : Env} {b b' : Builder} {f : Font} (hr : Reachable b) (hf : Fair env)
    (hz : ∃ k, 0 < k ∧ k < 256 ∧ env.predef k = env.predef 0) (h : b.build env = .ok (b', f)) (ht : SizesFit b' f)
    (d : Demand) (hd : d ∉ broken) (hdates : d ≠ .dates) : d.Holds f := by
  obtain ⟨s, w, bi, h⟩ := build_parts h
  have hk := hr.inv.toKept
  have hc := hr.calls
  cases d with
  | dates => exact absurd rfl hdates
  | format | name | vertInterspacing | vertLineWidth | vertLineGap | glyphNames | words | settingNames | options |
    switchCases | vertKerning => exact absurd (by decide) hd
  | glyphCount | vertLayout | ascent | extraAscent => exact h.metrics_demands _ (by decide)
  | colorSections => exact (h.color_demands hk ht).1
  | colors => exact (h.color_demands hk ht).2
  | ends t => exact h.end_demands hk hf hz ht t
  | glyphNameOrder => exact (h.name_demands hk hf hz ht).1
  | namedGlyphs => exact (h.name_demands hk hf hz ht).2
  | switchCount => exact (h.switch_demands hc hk).2.1
  | switchSettings => exact (h.switch_demands hc hk).2.2
  | codePoints => exact (h.mapping_demands hc hk ht).1
  | mappingSwitch => exact (h.mapping_demands hc hk ht).2
  | conditionTerms => exact (h.other_demands hk).1
  | ruleCondition u => exact (h.rule_demands hr.madeRules hk u).1
  | ruleBody u => exact (h.rule_demands hr.madeRules hk u).2.1
  | ruleBlocks u => exact (h.rule_demands hr.madeRules hk u).2.2.1
  | ruleSize u => exact (h.rule_demands hr.madeRules hk u).2.2.2.1
  | ruleOutput u =>
    cases u with
    | true => exact (h.rule_demands hr.madeRules hk true).2.2.2.2 rfl
    | false => exact absurd (by decide) hd
  | horzPairs => exact (h.kern_demands hk hf hz ht).1
  | vertPairs => exact (h.kern_demands hk hf hz ht).2.1
  | ending => exact (h.kern_demands hk hf hz ht).2.2
  | size => exact (h.other_demands hk).2

/-- Dates are fine if those of the builder are. -/
theorem build_dates {env : Env} {b b' : Builder} {f : Font} (h : b.build env = .ok (b', f))
    (hd : ∀ d ∈ [b.firstVersionDate, b.majorVersionDate, b.minorVersionDate], DateFits d ∧ Nested d) :
    Demand.dates.Holds f := by
  obtain ⟨s, w, bi, h⟩ := build_parts h
  exact h.dates_demand hd

/-- The demands of `broken` are violated by fonts that are built. -/
theorem build_violated : ∀ d ∈ broken, ∃ env b b' f, Reachable b ∧ Fair env ∧
    (∃ k, 0 < k ∧ k < 256 ∧ env.predef k = env.predef 0) ∧ b.build env = .ok (b', f) ∧ SizesFit b' f ∧ ¬ d.Holds f := by
  intro d hd
  have key : ∀ {b : Builder} {d : Demand}, Reachable b → Sample.Fits Sample.env b →
      ¬ d.Holds (Sample.resultIn Sample.env b).2 → ∃ env b b' f, Reachable b ∧ Fair env ∧
      (∃ k, 0 < k ∧ k < 256 ∧ env.predef k = env.predef 0) ∧ b.build env = .ok (b', f) ∧ SizesFit b' f ∧ ¬ d.Holds f :=
    fun hr h hn => ⟨_, _, _, _, hr, env_fair, env_zero, h.built.1, h.built.2, hn⟩
  simp only [broken, List.mem_cons, List.not_mem_nil, or_false] at hd
  rcases hd with rfl | rfl | rfl | rfl | rfl | rfl | rfl | rfl | rfl | rfl | rfl | rfl
  · exact key oneGlyph_reachable (by decide +kernel) (by simp only [Demand.Holds]; decide +kernel)
  · exact key Sample.noName_reachable (by decide +kernel) (by simp only [Demand.Holds]; decide +kernel)
  · exact key Sample.interspaced_reachable (by decide +kernel) (by simp only [Demand.Holds]; decide +kernel)
  · exact key Sample.unvertical_reachable (by decide +kernel) (by simp only [Demand.Holds]; decide +kernel)
  · exact key Sample.unvertical_reachable (by decide +kernel) (by simp only [Demand.Holds]; decide +kernel)
  · exact key Sample.digitGlyph_reachable (by decide +kernel) fun h => Names.not_basic (c := 49) (s := [97]) (by decide)
      ((by decide +kernel : glyphNameAt (Sample.resultIn Sample.env Sample.digitGlyph).2 0 = [49, 97]) ▸
        h 0 (by decide +kernel))
  · exact key Sample.digitWord_reachable (by decide +kernel) fun h => Names.not_basic (c := 49) (s := [97]) (by decide)
      ((by decide +kernel : wordAt (Sample.resultIn Sample.env Sample.digitWord).2 0 = [49, 97]) ▸
        h 0 (by decide +kernel))
  · exact key Sample.digitSetting_reachable (by decide +kernel) fun h => Names.not_basic (c := 49) (s := [97]) (by decide)
      ((by decide +kernel : settingNameAt (Sample.resultIn Sample.env Sample.digitSetting).2 0 = [49, 97]) ▸
        h 0 (by decide +kernel))
  · have h : Sample.Fits Sample.realEnv Sample.hundred ∧
        ¬ Demand.options.Holds (Sample.resultIn Sample.realEnv Sample.hundred).2 := by
      simp only [Demand.Holds]
      rw [Sample.realEnv, predefWord_bytes]
      decide +kernel
    exact ⟨_, _, _, _, Sample.hundred_reachable, ⟨fun _ _ => .refl _, fun _ => .refl _, fun _ => .refl _⟩,
      ⟨1, by decide, by decide, by decide +kernel⟩, h.1.built.1, h.1.built.2, h.2⟩
  · exact key Sample.manyCases_reachable (by decide +kernel) (by simp only [Demand.Holds]; decide +kernel)
  · exact key Sample.doubling_reachable (by decide +kernel) (by simp only [Demand.Holds]; decide +kernel)
  · exact key Sample.kernedTwice_reachable (by decide +kernel) (by simp only [Demand.Holds]; decide +kernel)

/-- A font with something in most of the sections. -/
example : Reachable Sample.mapped ∧ Sample.Fits Sample.env Sample.mapped ∧
    ∀ d : Demand, d ∉ broken → d.Holds (Sample.resultIn Sample.env Sample.mapped).2 := by
  have h : Sample.Fits Sample.env Sample.mapped ∧ ∀ d ∈ [Sample.mapped.firstVersionDate, Sample.mapped.majorVersionDate,
      Sample.mapped.minorVersionDate], DateFits d ∧ Nested d := by
    simp only [DateFits, Nested]; decide +kernel
  refine ⟨mapped_reachable, h.1, fun d hd => ?_⟩
  by_cases e : d = .dates
  · rw [e]; exact build_dates h.1.built.1 h.2
  · exact build_keeps_partial mapped_reachable env_fair env_zero h.1.built.1 h.1.built.2 d hd e

end C60
