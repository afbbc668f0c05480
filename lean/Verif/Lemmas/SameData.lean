import Verif.Lemmas.BuiltParse
import Verif.Spec.SampleSame

/-! # Different fonts with the same data -/

namespace BuilderModel
open Go Helpers Spec FontModel

namespace Builder
variable {b : Builder}

/-- The length of the data before the mapping matters only for the limit on the size. -/
theorem casesBytes_len : ∀ {cs : List MapGroup} {n k : Nat} {x : Bytes}, b.casesBytes n cs = .ok x →
    k + x.length ≤ maxFontDataSize → b.casesBytes k cs = .ok x
  | [], _, _, _, h, _ => h
  | g :: gs, n, k, x, h, hk => by
    simp only [casesBytes, Res.bind_eq_ok, ite_err, Res.pure_eq, Res.ok.injEq] at h ⊢
    obtain ⟨y, h1, h2, z, h3, rfl⟩ := h
    rw [List.length_append] at hk
    exact ⟨y, h1, by omega, z, casesBytes_len h3 (by omega), rfl⟩

theorem entryBytes_len {e : MapEntry} {n k : Nat} {x : Bytes} (h : b.entryBytes n e = .ok x)
    (hk : k + x.length ≤ maxFontDataSize) : b.entryBytes k e = .ok x := by
  rw [entryBytes] at h ⊢
  split at h
  · rename_i h0; rw [if_pos h0]; exact h
  · rename_i h0
    split at h
    · rename_i h1; rw [if_neg h0, if_pos h1]; exact h
    · rename_i h1
      rw [if_neg h0, if_neg h1]
      simp only [Res.bind_eq_ok, Res.pure_eq, Res.ok.injEq] at h ⊢
      obtain ⟨y, h2, rfl⟩ := h
      rw [List.length_append, List.length_singleton] at hk
      exact ⟨y, casesBytes_len h2 (by omega), rfl⟩

theorem entriesLoop_len : ∀ {cs : List Int} {n k : Nat} {l : List Bytes}, b.entriesLoop n cs = .ok l →
    k + l.flatten.length ≤ maxFontDataSize → b.entriesLoop k cs = .ok l
  | [], _, _, _, h, _ => h
  | c :: cs, n, k, l, h, hk => by
    rw [entriesLoop] at h ⊢
    cases hg : b.runeMapping.get c with
    | none => rw [hg] at h; cases h
    | some e =>
      rw [hg] at h
      simp only [Res.bind_eq_ok, ite_panic, Res.pure_eq, Res.ok.injEq] at h ⊢
      obtain ⟨m, h1, h2, x, h3, rest, h4, rfl⟩ := h
      rw [List.flatten_cons, List.length_append] at hk
      exact ⟨m, h1, h2, x, entryBytes_len h3 (by omega), rest, entriesLoop_len h4 (by omega), rfl⟩

theorem mappingSection_len {n k : Nat} {x : Bytes} (h : b.mappingSection n = .ok x)
    (hk : k + x.length ≤ maxFontDataSize) : b.mappingSection k = .ok x := by
  simp only [mappingSection, ite_panic, Res.bind_eq_ok, Res.pure_eq, Res.ok.injEq] at h ⊢
  obtain ⟨h1, h2, l, h3, rfl⟩ := h
  refine ⟨h1, h2, l, entriesLoop_len h3 ?_, rfl⟩
  have e : (isort (fun x y : Int => decide (x ≤ y)) b.runeMapping.keys).length = b.runeMapping.length := by
    rw [(isort_perm _ _).length_eq, GoMap.keys, List.length_map]
  have e4 : (((isort (fun x y : Int => decide (x ≤ y)) b.runeMapping.keys).map fun c =>
      appendUint32LE [] c.toNat).flatten).length = 4 * b.runeMapping.length := by
    rw [flatten_length, ← e]
    generalize isort (fun x y : Int => decide (x ≤ y)) b.runeMapping.keys = cs
    induction cs with
    | nil => rfl
    | cons c cs ih =>
      simp only [List.map_cons, List.sum_cons, ih, List.length_cons]
      rw [show (appendUint32LE [] c.toNat).length = 4 from rfl]
      omega
  have e3 := (entriesLoop_ok h3).1
  simp only [List.length_append, e4, ends24_length, List.length_map, e3, e] at hk
  rw [show (appendUint16LE [] b.runeMapping.length).length = 2 from rfl] at hk
  omega

end Builder

namespace Builder
variable (b : Builder) (ds : List Dye) (ps : List Palette)

/-- The builder with other colors. -/
abbrev colored : Builder := { b with dyes := ds, palettes := ps }

theorem colored_header : (colored b ds ps).headerSection = b.headerSection := rfl
theorem colored_metricsStatus : (colored b ds ps).metricsStatus = b.metricsStatus := rfl
theorem colored_metrics : (colored b ds ps).metricsSection = b.metricsSection := rfl
theorem colored_namedLoop : ∀ l, (colored b ds ps).namedLoop l = b.namedLoop l
  | [] => rfl
  | u :: l => by
    simp only [namedLoop, colored_namedLoop l]
    rfl
theorem colored_names : (colored b ds ps).glyphNamesSection = b.glyphNamesSection := by
  simp only [glyphNamesSection, colored_namedLoop]
  rfl
theorem colored_masks (env : Env) : (colored b ds ps).glyphMasksSection env = b.glyphMasksSection env := rfl
theorem colored_words (env : Env) : (colored b ds ps).settingWords env = b.settingWords env := rfl
theorem colored_settingNames : (colored b ds ps).settingNamesSection = b.settingNamesSection := rfl
theorem colored_settingDefs (w bi : GoMap Bytes Int) : (colored b ds ps).settingDefsSection bi w = b.settingDefsSection bi w := rfl
theorem colored_switches : (colored b ds ps).switchesSection = b.switchesSection := rfl
theorem colored_cases : ∀ (cs : List MapGroup) (n : Nat), (colored b ds ps).casesBytes n cs = b.casesBytes n cs
  | [], n => rfl
  | g :: gs, n => by
    simp only [casesBytes, colored_cases gs]
    rfl
theorem colored_entry (e : MapEntry) (n : Nat) : (colored b ds ps).entryBytes n e = b.entryBytes n e := by
  rw [entryBytes, entryBytes, colored_cases]
  rfl
theorem colored_numCases : ∀ (l : List Nat) (i : Nat) (n : Int), (colored b ds ps).numCasesLoop l i n = b.numCasesLoop l i n
  | [], _, _ => rfl
  | s :: l, i, n => by
    simp only [numCasesLoop, colored_numCases l]
theorem colored_count (i : Nat) : (colored b ds ps).computeNumSwitchCases i = b.computeNumSwitchCases i := by
  simp only [computeNumSwitchCases, colored_numCases]
theorem colored_entries : ∀ (cs : List Int) (n : Nat), (colored b ds ps).entriesLoop n cs = b.entriesLoop n cs
  | [], n => rfl
  | c :: cs, n => by
    simp only [entriesLoop, colored_entries cs, colored_entry, colored_count]
theorem colored_mapping (n : Nat) : (colored b ds ps).mappingSection n = b.mappingSection n := by
  simp only [mappingSection, colored_entries]
theorem colored_conditions : (colored b ds ps).conditionsSection = b.conditionsSection := rfl
theorem colored_utf8Sets : (colored b ds ps).utf8SetsSection = b.utf8SetsSection := rfl
theorem colored_checkSets : ∀ (l : List Nat) (n : Nat), (colored b ds ps).checkSets n l = b.checkSets n l
  | [], _ => rfl
  | u :: l, n => by
    simp only [checkSets, colored_checkSets l]
theorem colored_glyphSets : (colored b ds ps).glyphSetsSection = b.glyphSetsSection := by
  simp only [glyphSetsSection, colored_checkSets]
  rfl
theorem colored_groupRef : (colored b ds ps).groupRef = b.groupRef := rfl
theorem colored_glyphElem : (colored b ds ps).glyphElem = b.glyphElem := rfl
theorem colored_kern (m m' : GoMap (Nat × Nat) KernPair) : (colored b ds ps).kernSection m m' = b.kernSection m m' := rfl
end Builder

/-- Names for the lengths of all sections. -/
macro "lengths" : tactic => `(tactic|
  (generalize List.length (Parts.header _) = l1; generalize List.length (Parts.metrics _) = l2
   generalize List.length (Parts.dyes _) = l3; generalize List.length (Parts.palettes _) = l4
   generalize List.length (Parts.glyphNames _) = l5; generalize List.length (Parts.glyphMasks _) = l6
   generalize List.length (Parts.words _) = l7; generalize List.length (Parts.settingNames _) = l8
   generalize List.length (Parts.settingDefs _) = l9; generalize List.length (Parts.switches _) = l10
   generalize List.length (Parts.mapping _) = l11; generalize List.length (Parts.conditions _) = l12
   generalize List.length (Parts.utf8Sets _) = l13; generalize List.length (Parts.glyphSets _) = l14
   generalize List.length (Parts.utf8Rules _) = l15; generalize List.length (Parts.glyphRules _) = l16
   generalize List.length (Parts.horzKern _) = l17; generalize List.length (Parts.vertKern _) = l18))

/-- Other colors, the same rest. -/
theorem Built.recolor {env : Env} {b b' : Builder} {f : Font} {s : Parts} {w bi : GoMap Bytes Int}
    (h : Built env b b' f s w bi) {ds : List Dye} {ps : List Palette} {x y : Bytes} (h0 : 0 < ds.length + ps.length)
    (h1 : ds.length + ps.length ≤ 255) (hx : (b.colored ds ps).dyesSection = .ok x)
    (hy : (b.colored ds ps).palettesSection = .ok y)
    (hs : f.data.length + x.length + y.length ≤ maxFontDataSize) :
    Built env (b.colored ds ps) (b.colored ds ps) ({ s with dyes := x, palettes := y } : Parts).font
      { s with dyes := x, palettes := y } w bi := by
  obtain ⟨ds', hb⟩ : ∃ ds', b' = b.colored ds' b.palettes := ⟨_, h.b'_eq⟩
  have hd : f.data.length = s.list.flatten.length := by rw [h.font]; rfl
  simp only [Parts.list, List.flatten_cons, List.flatten_nil, List.length_append, List.length_nil] at hd
  subst hb
  constructor
  case mapping =>
    have := h.mapping
    rw [Builder.colored_mapping] at this ⊢
    refine Builder.mappingSection_len this ?_
    simp only [Parts.pre, Parts.list, List.take, List.flatten_cons, List.flatten_nil, List.length_append,
      List.length_nil]
    rw [hd] at hs
    refine Nat.le_trans ?_ hs
    clear hd hs hx hy
    lengths
    omega
  case size =>
    simp only [Parts.list, List.flatten_cons, List.flatten_nil, List.length_append, List.length_nil]
    rw [hd] at hs
    refine Nat.le_trans ?_ hs
    clear hd hs hx hy
    lengths
    omega
  case main => exact if_neg (Nat.ne_of_gt h0)
  case sections => exact h1
  case count => exact h.count
  case order => exact h.order
  case some => exact h.some
  case header => exact h.header
  case metricsOk => exact h.metricsOk
  case metrics => exact h.metrics
  case dyes => exact hx
  case palettes => exact hy
  case glyphNames => have := h.glyphNames; rwa [Builder.colored_names] at this ⊢
  case glyphMasks => exact h.glyphMasks
  case wordMap => exact h.wordMap
  case wordBytes => exact h.wordBytes
  case settingNames => exact h.settingNames
  case settingDefs => exact h.settingDefs
  case switches => exact h.switches
  case conditions => exact h.conditions
  case utf8Sets => exact h.utf8Sets
  case glyphSets => have := h.glyphSets; rwa [Builder.colored_glyphSets] at this ⊢
  case utf8Rules => exact h.utf8Rules
  case glyphRules => exact h.glyphRules
  case horzCount => exact h.horzCount
  case vertCount => exact h.vertCount
  case horzKern => exact h.horzKern
  case vertKern => exact h.vertKern
  case font => rfl

theorem first_dye {b : Builder} (h1 : b.dyes = []) (h2 : b.palettes = []) (n : Bytes) :
    b.addDye n [255] = .ok { b with dyes := [⟨n, [255]⟩] } := by
  have e : b.checkColorName n = .ok () := by
    rw [Builder.checkColorName, h1, h2]; rfl
  have e' : b.colorCount = 0 := by
    rw [Builder.colorCount, h1, h2]; rfl
  rw [Builder.addDye, e, Res.ok_bind, e', h1]
  rfl

theorem grow {a c l m n : Nat} (h : a + l ≤ a + m + n) : c + l ≤ c + m + n := by omega
theorem shrink {a c l m n : Nat} (h : a + m + n ≤ a + l) : c + m + n ≤ c + l := by omega

theorem ends_long : ends16 0 [65540] = [4, 0] := by decide +kernel
theorem ends_palette : ends16 0 [65529] = [249, 255] := by decide +kernel

section
open Sample
variable (b : Builder) {filler : Bytes}

theorem longDye_dyes (hlen : (ascii "main" ++ [1, 1, 200, 0, 0, 255, 249, 255] ++ filler).length = 65540) :
    (longDye b filler).dyesSection =
      .ok ([1, 1, 255, 4, 0] ++ (ascii "main" ++ [1, 1, 200, 0, 0, 255, 249, 255] ++ filler)) := by
  rw [Builder.dyesSection, longDye]
  simp only [List.map_cons, List.map_nil, hlen, List.flatten_cons, List.flatten_nil, List.append_nil, ends_long]
  rfl

theorem longDye_palettes (filler : Bytes) {b : Builder} (h2 : b.palettes = []) : (longDye b filler).palettesSection = .ok [0] := by
  rw [Builder.palettesSection, longDye]
  simp only [h2]
  rfl

theorem trueColors_palettes (hlen : (filler ++ [0]).length = 65529) :
    (trueColors b filler).palettesSection = .ok ([1, 1, 200, 0, 0, 255, 249, 255] ++ (filler ++ [0])) := by
  rw [Builder.palettesSection, trueColors]
  simp only [List.map_cons, List.map_nil, hlen, List.flatten_cons, List.flatten_nil, List.append_nil, ends_palette]
  rfl

end

open Sample in
/-- Two builders with different colors and the same data. -/
theorem same_data {env : Env} {b b' : Builder} {f : Font} (hr : Reachable b) (hb : b.build env = .ok (b', f))
    {filler : Bytes} (hl : filler.length = 65528)
    (h1 : b.dyes = []) (h2 : b.palettes = []) (hs : f.data.length + 65546 ≤ maxFontDataSize) :
    Reachable (longDye b filler) ∧ Reachable (trueColors b filler) ∧
    ∃ g g', (longDye b filler).build env = .ok (longDye b filler, g) ∧ (trueColors b filler).build env = .ok (trueColors b filler, g') ∧
      g'.data = g.data ∧ g.numPalettes = .ok 0 ∧ g'.numPalettes = .ok 1 ∧
      (SizesFit b' f → Acceptable b' f → SizesFit (trueColors b filler) g' ∧ Acceptable (trueColors b filler) g') := by
  have e1 : longDye b filler = b.colored [⟨ascii "main" ++ [1, 1, 200, 0, 0, 255, 249, 255] ++ filler, [255]⟩] [] := by
    rw [longDye, ← h2]
  have e2 : trueColors b filler = b.colored [⟨ascii "main", [255]⟩] [⟨filler ++ [0], [⟨200, 0, 0, 255⟩]⟩] := rfl
  obtain ⟨s, w, bi, h⟩ := build_parts hb
  have r1 : Reachable (longDye b filler) := hr.call (.addDye (first_dye h1 h2 _))
  have r2 : Reachable (trueColors b filler) := by
    have r3 : Reachable { b with dyes := [⟨ascii "main", [255]⟩] } := hr.call (.addDye (first_dye h1 h2 _))
    refine r3.call (.addPalette (name := filler ++ [0]) (colors := [⟨200, 0, 0, 255⟩]) ?_)
    have hne : ¬ ascii "main" = filler ++ [0] := by
      intro he
      have := congrArg List.length he
      rw [List.length_append, hl, show (ascii "main").length = 4 from rfl] at this
      omega
    have e : Builder.checkColorName { b with dyes := [⟨ascii "main", [255]⟩] } (filler ++ [0]) = .ok () := by
      rw [Builder.checkColorName]
      simp only [h2, List.any_cons, List.any_nil, hne, decide_false, Bool.or_false, Bool.false_eq_true, if_false]
    have e' : Builder.colorCount { b with dyes := [⟨ascii "main", [255]⟩] } = 1 := by
      simp only [Builder.colorCount, h2]; rfl
    rw [Builder.addPalette, e, Res.ok_bind, e']
    simp only [h2, trueColors]
    rfl
  have hlen : (ascii "main" ++ [1, 1, 200, 0, 0, 255, 249, 255] ++ filler).length = 65540 := by
    rw [List.length_append, hl, show (ascii "main" ++ [1, 1, 200, 0, 0, 255, 249, 255] : Bytes).length = 12 from rfl]
  have hlen' : (filler ++ [0]).length = 65529 := by
    rw [List.length_append, hl, show ([0] : Bytes).length = 1 from rfl]
  have x1 := longDye_dyes b hlen
  have y1 := longDye_palettes filler h2
  have x2 : (trueColors b filler).dyesSection = .ok ([1, 1, 255, 4, 0] ++ ascii "main") := rfl
  have y2 := trueColors_palettes b hlen'
  rw [e1] at x1 y1
  rw [e2] at x2 y2
  have l1 : ([1, 1, 255, 4, 0] ++ (ascii "main" ++ [1, 1, 200, 0, 0, 255, 249, 255] ++ filler)).length +
      ([0] : Bytes).length = 65546 := by
    rw [List.length_append, hlen, show ([1, 1, 255, 4, 0] : Bytes).length = 5 from rfl,
      show ([0] : Bytes).length = 1 from rfl]
  have l2 : ([1, 1, 255, 4, 0] ++ ascii "main").length +
      ([1, 1, 200, 0, 0, 255, 249, 255] ++ (filler ++ [0])).length = 65546 := by
    rw [List.length_append (as := [1, 1, 200, 0, 0, 255, 249, 255]), hlen',
      show ([1, 1, 255, 4, 0] ++ ascii "main" : Bytes).length = 9 from rfl,
      show ([1, 1, 200, 0, 0, 255, 249, 255] : Bytes).length = 8 from rfl]
  have b1 := h.recolor (by simp) (by simp) x1 y1 (by rw [Nat.add_assoc, l1]; exact hs)
  have b2 := h.recolor (by simp) (by simp) x2 y2 (by rw [Nat.add_assoc, l2]; exact hs)
  rw [← e1] at b1
  rw [← e2] at b2
  refine ⟨r1, r2, _, _, b1.build, b2.build, ?_, ?_, ?_, ?_⟩
  · simp only [Parts.font, Parts.list, List.flatten_cons, List.append_assoc, List.cons_append, List.nil_append]
  · have := b1.atPalettes.byte
    rw [Font.numPalettes, rd8_eq (by have := b1.atPalettes.len; exact this), this]
    rfl
  · have := b2.atPalettes.left.byte
    rw [Font.numPalettes, rd8_eq (by have := b2.atPalettes.left.len; exact Nat.lt_of_lt_of_le (by simp) this), this]
    rfl
  · intro hf ha
    obtain ⟨ds', hb'⟩ : ∃ ds', b' = b.colored ds' b.palettes := ⟨_, h.b'_eq⟩
    subst hb'
    obtain ⟨-, -, -, -, -, o6, -, -, -, -, o11, -, -, o14, o15, o16, -⟩ := h.offs
    obtain ⟨-, -, -, -, -, p6, -, -, -, -, p11, -, -, p14, p15, p16, -⟩ := b2.offs
    simp only at p6 p11 p14 p15 p16
    refine ⟨⟨show ([⟨ascii "main", [255]⟩].map fun d : Dye => d.name.length).sum ≤ 65535 by decide, ?_, ?_, ?_⟩,
      ⟨ha.name, ha.vertInterspacing, Nat.le_refl 1, show 1 ≤ 4 by decide, Nat.le_refl 1, ?_, ?_, ha.options,
      ha.switches, fun h0 => ?_, ?_, ?_, ?_⟩⟩
    · simp only [trueColors, List.map_cons, List.map_nil, List.sum_cons, List.sum_nil, hlen']
      omega
    · have := hf.masks
      rw [o6] at this
      rw [p6]
      exact grow this
    · have := hf.mapping
      rw [o11] at this
      rw [p11]
      exact grow this
    · simp only [trueColors, List.map_cons, List.map_nil, List.sum_cons, List.sum_nil, hlen', List.length_cons,
        List.length_nil]
      omega
    · have := ha.masks
      rw [o6] at this
      rw [p6]
      exact grow this
    · have := ha.glyphSets h0
      rw [o14] at this
      rw [p14]
      exact shrink this
    · have := ha.utf8Rules
      rw [o15] at this
      rw [p15]
      exact grow this
    · have := ha.glyphRules
      rw [o16] at this
      rw [p16]
      exact grow this
    · have := ha.mapping
      rw [o11] at this
      rw [p11]
      exact shrink this

end BuilderModel
