import Verif.Lemmas.Switch
import Verif.Lemmas.Exported
import Verif.Lemmas.Calls
import Verif.Lemmas.BuiltParse
import Verif.Spec.ReadBack
import Verif.Spec.SampleOutside

/-! # Queries outside of what a font contains -/

namespace FontModel.Font
open Go

theorem switchLoop_panic {f : Font} {settings ks : List Nat} {base s : Nat} {radix : Nat → Nat}
    (hks : ∀ i (hi : i < ks.length), rd8 f.data (base + s + i) = .ok ks[i])
    (hopt : ∀ k ∈ ks, f.getNumOptions k = .ok (radix k)) : ∀ (n c r : Nat), n < ks.length →
    (∃ i, ∃ hi : i < ks.length, i ≤ n ∧ settings.length ≤ ks[i]) →
    (f.switchLoop settings base n (s + n) c r).isPanic = true := by
  have out : ∀ {k : Nat} {β : Type} (g : Nat → Res β), settings.length ≤ k →
      ((idx settings k).bind g).isPanic = true := by
    intro k β g h
    simp [idx, List.getElem?_eq_none h, Res.bind]
  intro n
  induction n with
  | zero =>
    intro c r hn ⟨i, hi, h0, hx⟩
    have e := hks 0 hn
    obtain rfl : i = 0 := by omega
    simp only [Nat.add_zero] at e
    rw [switchLoop, Nat.add_zero, e, Res.ok_bind]
    exact out _ hx
  | succ n ih =>
    intro c r hn ⟨i, hi, h0, hx⟩
    have hm := List.getElem_mem hn
    have e := hks (n + 1) hn
    rw [switchLoop, ← Nat.add_assoc base, e, Res.ok_bind]
    by_cases hlt : ks[n + 1] < settings.length
    · rw [idx_lt hlt, Res.ok_bind, hopt _ hm, Res.ok_bind, show s + (n + 1) - 1 = s + n by omega]
      refine ih _ _ (by omega) ⟨i, hi, ?_, hx⟩
      rcases Nat.lt_or_ge n i with h1 | h1
      · obtain rfl : i = n + 1 := by omega
        omega
      · exact h1
    · exact out _ (by omega)

end FontModel.Font

namespace Spec
open Go BuilderModel

theorem lookalike_reachable : Reachable Sample.lookalike := by
  have g : ∀ {b b' : Builder} {u : Nat}, Reachable b → b.addGlyph [u] Sample.noPixels = .ok (b', u) → Reachable b' :=
    fun h e => h.call (.addGlyph e)
  have h1 : Reachable (Sample.val (Sample.fresh, 0) (Sample.fresh.addGlyph [1001] Sample.noPixels)).1 :=
    g (u := 1001) fresh_reachable (by decide +kernel)
  have h2 : Reachable (Sample.val (Sample.fresh, 0) ((Sample.val (Sample.fresh, 0) (Sample.fresh.addGlyph [1001]
      Sample.noPixels)).1.addGlyph [1002] Sample.noPixels)).1 := g (u := 1002) h1 (by decide +kernel)
  have h3 := g (u := 1003) h2 (b' := (Sample.val (Sample.fresh, 0) ((Sample.val (Sample.fresh, 0)
    ((Sample.val (Sample.fresh, 0) (Sample.fresh.addGlyph [1001]
      Sample.noPixels)).1.addGlyph [1002] Sample.noPixels)).1.addGlyph [1003] Sample.noPixels)).1) (by decide +kernel)
  have h4 := h3.call (.setVertLayoutUsed true)
  have h5 := h4.call (.setGlyphPlacement (uid := 1001) (p := ⟨2, 0, 0, 8⟩)
    (b' := Sample.val Sample.fresh (Sample.emptyGlyphs.setGlyphPlacement 1001 ⟨2, 0, 0, 8⟩)) (by decide +kernel))
  exact h5.call (.setGlyphPlacement (uid := 1002) (p := ⟨0, 0, 132, 255⟩) (by decide +kernel))

theorem lookalike_readBack : ReadBack Sample.env Sample.lookalike (Sample.result Sample.lookalike).2 := by
  obtain ⟨first, gz, he⟩ := exists_exported (Sample.result Sample.lookalike).2
  have hb : Sample.lookalike.build Sample.env =
      .ok ((Sample.result Sample.lookalike).1, (Sample.result Sample.lookalike).2) := by decide +kernel
  have hs : SizesFit (Sample.result Sample.lookalike).1 (Sample.result Sample.lookalike).2 :=
    fits_of (by decide +kernel)
  exact ⟨env_fair, fun _ => .refl _, env_zero, lookalike_reachable, _, _, first, gz, fun _ => 0, hb, hs, he,
    (parse_built _ env_fair env_zero lookalike_reachable hb he hs).1
      ⟨by decide +kernel, by decide +kernel, by decide +kernel, by decide +kernel, by decide +kernel,
        by decide +kernel, by decide +kernel, by decide +kernel, by decide +kernel, by decide +kernel,
        by decide +kernel, by decide +kernel, by decide +kernel⟩⟩

theorem hollowDye_reachable : Reachable Sample.hollowDye := by
  have h1 := oneGlyph_reachable.call (.addDye (name := ascii "main") (alphas := [255, 128])
    (b' := Sample.val Sample.fresh (Sample.oneGlyph.addDye (ascii "main") [255, 128])) (by decide +kernel))
  exact h1.call (.addDye (name := ascii "none") (alphas := []) (by decide +kernel))

theorem hollowDye_readBack : ReadBack Sample.env Sample.hollowDye (Sample.result Sample.hollowDye).2 := by
  obtain ⟨first, gz, he⟩ := exists_exported (Sample.result Sample.hollowDye).2
  have hb : Sample.hollowDye.build Sample.env =
      .ok ((Sample.result Sample.hollowDye).1, (Sample.result Sample.hollowDye).2) := by decide +kernel
  have hs : SizesFit (Sample.result Sample.hollowDye).1 (Sample.result Sample.hollowDye).2 :=
    fits_of (by decide +kernel)
  exact ⟨env_fair, fun _ => .refl _, env_zero, hollowDye_reachable, _, _, first, gz, fun _ => 0, hb, hs, he,
    (parse_built _ env_fair env_zero hollowDye_reachable hb he hs).1
      ⟨by decide +kernel, by decide +kernel, by decide +kernel, by decide +kernel, by decide +kernel,
        by decide +kernel, by decide +kernel, by decide +kernel, by decide +kernel, by decide +kernel,
        by decide +kernel, by decide +kernel, by decide +kernel⟩⟩

end Spec
