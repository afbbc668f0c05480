import Verif.Lemmas.Reachable
import Verif.Lemmas.Exported
import Verif.Lemmas.BuiltFits
import Verif.Lemmas.ParseAccept

/-! # Parsing built fonts -/

namespace Spec
open Go FontModel BuilderModel ParseBuf ParseModel

theorem parse_built {env : Env} {b b' : Builder} {f : Font} {first : Ev} {gz : Res Reader}
    (junk : Nat → UInt8) (hf : Fair env) (hz : ∃ k, 0 < k ∧ k < 256 ∧ env.predef k = env.predef 0)
    (hr : Reachable b) (h : b.build env = .ok (b', f)) (he : Exported f first gz) (ht : SizesFit b' f) :
    (Acceptable b' f → parse junk first gz = .ok f) ∧
    (¬ Acceptable b' f → ∃ m, parse junk first gz = .err m) := by
  obtain ⟨s, w, bi, hb⟩ := build_parts h
  have hk := hr.inv.toKept
  obtain ⟨hL, hK⟩ := hb.layout hk hf hz ht
  obtain ⟨r, hv, hp⟩ := he.parse junk
  rw [hp, ← hb.checks_iff hk hf hz ht]
  exact parseStream_checks junk hv hb.data_len rfl hL hK

/-- The font is returned only if its data fits and is acceptable. -/
theorem parse_exact {env : Env} {b b' : Builder} {f : Font} {first : Ev} {gz : Res Reader}
    (junk : Nat → UInt8) (hf : Fair env) (hz : ∃ k, 0 < k ∧ k < 256 ∧ env.predef k = env.predef 0)
    (hr : Reachable b) (h : b.build env = .ok (b', f)) (he : Exported f first gz) :
    parse junk first gz = .ok f ↔ SizesFit b' f ∧ Acceptable b' f := by
  refine ⟨fun hp => ?_, fun ⟨ht, ha⟩ => (parse_built junk hf hz hr h he ht).1 ha⟩
  obtain ⟨s, w, bi, hb⟩ := build_parts h
  have ht : SizesFit b' f := by
    obtain ⟨r, hv, hp'⟩ := he.parse junk
    rw [hp'] at hp
    rcases parseStream_flat junk hv hb.data_len with ⟨m, _, h2⟩ | ⟨f0, i, s, h1, _, hi, h3⟩
    · rw [h2] at hp; cases hp
    · rcases h3 with ⟨_, h3⟩ | ⟨h3, _⟩
      · rw [h3] at hp
        obtain ⟨_, _, t⟩ := (parseBody_iff hb.data_len).1 h1
        refine hb.fits_of_layout hr.inv.toKept ?_
        have := t.setData f.data
        rw [← Res.ok.inj hp] at this ⊢
        exact this.layout
      · rw [h3] at hp; cases hp
  refine ⟨ht, Classical.byContradiction fun ha => ?_⟩
  obtain ⟨m, hm⟩ := (parse_built junk hf hz hr h he ht).2 ha
  rw [hm] at hp
  cases hp

theorem rejected {b : Builder} {P : Builder → Font → Prop} (hr : Reachable b)
    (h : b.build Sample.env = .ok (Sample.result b)) (ht : SizesFit (Sample.result b).1 (Sample.result b).2)
    (hP : Acceptable (Sample.result b).1 (Sample.result b).2 → P (Sample.result b).1 (Sample.result b).2)
    (hn : ¬ P (Sample.result b).1 (Sample.result b).2) : Rejected b P :=
  ⟨hr, _, _, h, ht, hn, exists_exported _, fun _ _ junk he =>
    (parse_built junk env_fair env_zero hr h he ht).2 fun ha => hn (hP ha)⟩

/-- `SizesFit` in a form that can be computed. -/
theorem fits_of {b : Builder} {f : Font} (h : (b.dyes.map fun d => d.name.length).sum ≤ 65535 ∧
    (b.palettes.map fun p => p.name.length).sum ≤ 65535 ∧
    f.offWords ≤ f.offGlyphMasks + 3 * b.glyphOrder.length + 16777215 ∧
    f.offConditions ≤ f.offMapping + (2 + 7 * b.runeMapping.length) + 16777215) : SizesFit b f :=
  ⟨h.1, h.2.1, h.2.2.1, h.2.2.2⟩

/-- The whole computation at once. -/
theorem rejected_of {b : Builder} {P : Builder → Font → Prop} (hr : Reachable b)
    (hP : Acceptable (Sample.result b).1 (Sample.result b).2 → P (Sample.result b).1 (Sample.result b).2)
    (h : b.build Sample.env = .ok (Sample.result b) ∧ ¬ P (Sample.result b).1 (Sample.result b).2 ∧
      ((Sample.result b).1.dyes.map fun d => d.name.length).sum ≤ 65535 ∧
      ((Sample.result b).1.palettes.map fun p => p.name.length).sum ≤ 65535 ∧
      (Sample.result b).2.offWords ≤ (Sample.result b).2.offGlyphMasks +
        3 * (Sample.result b).1.glyphOrder.length + 16777215 ∧
      (Sample.result b).2.offConditions ≤ (Sample.result b).2.offMapping +
        (2 + 7 * (Sample.result b).1.runeMapping.length) + 16777215) : Rejected b P :=
  rejected hr h.1 (fits_of h.2.2) hP h.2.1

/-- Proves `Rejected` for a reachable builder by computation; the last argument is the part of `Acceptable`
that fails. -/
macro "rejects" hr:term:max p:term:max : tactic => `(tactic| exact rejected_of $hr $p (by decide +kernel))

end Spec
