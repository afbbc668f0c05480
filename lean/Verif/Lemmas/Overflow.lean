import Verif.Lemmas.Exported
import Verif.Lemmas.Calls
import Verif.Lemmas.BuiltParse
import Verif.Spec.ReadBack
import Verif.Spec.SampleOverflow

/-! # The builders with a wide switch are reachable -/

namespace Spec
open Go BuilderModel

theorem wideSwitch_reachable : Reachable Sample.wideSwitch := by
  have h4 : Reachable Sample.fourGlyphs := by
    have g : ∀ {b b' : Builder} {u : Nat}, Reachable b → b.addGlyph [u] Sample.dot = .ok (b', u) → Reachable b' :=
      fun h e => h.call (.addGlyph e)
    have h2 : Reachable Sample.twoGlyphs := g (u := 1002) oneGlyph_reachable (by decide +kernel)
    have h3 : Reachable (Sample.val (Sample.fresh, 0) (Sample.twoGlyphs.addGlyph [1003] Sample.dot)).1 :=
      g (u := 1003) h2 (by decide +kernel)
    exact g (u := 1004) h3 (by decide +kernel)
  have hs : Reachable Sample.wideSettings := by
    refine Reachable.fold (step := Sample.addFlag) (l := List.range 64) (fun b x b' h => ?_) (by decide +kernel) h4
    obtain ⟨⟨c, i⟩, h1, h2⟩ := Res.bind_eq_ok.1 h
    rw [← Res.ok.inj h2]
    exact .addSetting h1
  exact hs.call (.addSwitch (settings := List.range 64) (i := 0) (by decide +kernel))

theorem noCases_reachable : Reachable Sample.noCases :=
  wideSwitch_reachable.call (.mapWithSwitchSingles (c := 65) (sw := 0) (uids := []) (by decide) (by decide +kernel : _ = Res.ok Sample.noCases))

theorem noCasesMore_reachable : Reachable Sample.noCasesMore :=
  noCases_reachable.call (.mapGroup (c := 66) (flags := 9) (uids := [1003, 1001]) (by decide) (by decide +kernel : _ = Res.ok Sample.noCasesMore))

theorem foldl_mul_pos : ∀ (l : List Nat) (n : Nat), 0 < n → (∀ x ∈ l, x ≠ 0) → 0 < l.foldl (· * ·) n
  | [], _, h, _ => h
  | a :: l, n, h, hl => by
    rw [List.foldl_cons]
    refine foldl_mul_pos l _ (Nat.mul_pos h ?_) fun x hx => hl x (by simp [hx])
    have := hl a (by simp)
    omega

/-- The size of the mapping. -/
theorem mapping_least {env : Env} {b b' : Builder} {f : FontModel.Font} (hr : Reachable b)
    (h : b.build env = .ok (b', f)) (hs : ∀ sw ∈ b.switches, combinations (sw.map (options b)) < 18446744073709551616)
    (hm : f.offConditions ≤ f.offMapping + (2 + 7 * b.runeMapping.length) + 16777215) :
    f.offMapping + (2 + 7 * b'.runeMapping.length) + 3 * b'.runeMapping.length ≤ f.offConditions := by
  obtain ⟨s, w, bi, hB⟩ := build_parts h
  obtain ⟨total, -, -, h3, h4, -⟩ := hB.mapping_facts hm
  have e : b'.runeMapping = b.runeMapping := by rw [hB.b'_eq]
  rw [e, ← h3]
  refine Nat.add_le_add_left (h4 fun x hx hc => ?_) _
  rcases hr.calls.entries x hx with ⟨_, u, h⟩ | ⟨_, g, h, _⟩ | ⟨ht, hn, _⟩
  · rw [hc] at h; cases h
  · rw [hc] at h; cases h
  · obtain ⟨sw, h1, _, h2, h3, _⟩ := numCases_length ht hn hr.inv.toKept.switches
    have hp : 0 < combinations (sw.map (options b)) := by
      refine foldl_mul_pos _ _ (by omega) fun x hx => ?_
      obtain ⟨j, hj, rfl⟩ := List.mem_map.1 hx
      exact (h2 j hj).2
    rw [hc, Nat.mod_eq_of_lt (hs sw (List.mem_of_getElem? h1))] at h3
    simp only [List.length_nil] at h3
    omega

/-- The font of `noCasesMore` is parsed back. -/
theorem noCasesMore_readBack : ReadBack Sample.env Sample.noCasesMore (Sample.result Sample.noCasesMore).2 := by
  obtain ⟨first, gz, he⟩ := exists_exported (Sample.result Sample.noCasesMore).2
  have hb : Sample.noCasesMore.build Sample.env =
      .ok ((Sample.result Sample.noCasesMore).1, (Sample.result Sample.noCasesMore).2) := by decide +kernel
  have hs : SizesFit (Sample.result Sample.noCasesMore).1 (Sample.result Sample.noCasesMore).2 :=
    fits_of (by decide +kernel)
  exact ⟨env_fair, fun _ => .refl _, env_zero, noCasesMore_reachable, _, _, first, gz, fun _ => 0, hb, hs, he,
    (parse_built _ env_fair env_zero noCasesMore_reachable hb he hs).1
      ⟨by decide +kernel, by decide +kernel, by decide +kernel, by decide +kernel, by decide +kernel,
        by decide +kernel, by decide +kernel, by decide +kernel, by decide +kernel, by decide +kernel,
        by decide +kernel, by decide +kernel, by decide +kernel⟩⟩

end Spec
