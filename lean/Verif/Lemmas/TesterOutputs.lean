import Verif.Lemmas.TesterRefuses
import Verif.Lemmas.TextRules

/-!
# Rules with outputs that the scanner refuses
-/

namespace ScannerModel
open Go Helpers Spec

/-- Rules whose number of outputs, as written, is zero or greater than that of the elements in the body. -/
theorem scanRule_outs {k : Kind} {word : Nat → Bytes} {r : RuleCode} (hb : blockSize r.body ≤ 255)
    (ho : r.outs.length % 256 = 0 ∨ blockSize r.body < r.outs.length % 256) (es : List (Nat × Nat × Nat)) :
    scanRule k (r.bytes word) ≠ .ok es := by
  intro h
  rw [scanRule, Res.bind_eq_ok] at h
  obtain ⟨s, h, _⟩ := h
  generalize hD : r.bytes word = D at h
  have hD' : D = [r.condition, UInt8.ofNat (blockSize r.head), UInt8.ofNat (blockSize r.body),
      UInt8.ofNat (blockSize r.tail), UInt8.ofNat r.outs.length] ++ (r.outs.flatMap word ++ (blockBytes word r.head ++
      (blockBytes word r.body ++ blockBytes word r.tail))) := by rw [← hD]; rfl
  have r2 : rdb D 2 = .ok (blockSize r.body) := by
    rw [hD', head5 _ _ _ _ _ _ 2 (by omega)]
    simp; omega
  have r4 : rdb D 4 = .ok (r.outs.length % 256) := by
    rw [hD', head5 _ _ _ _ _ _ 4 (by omega)]
    simp
  unfold start at h
  split at h
  · cases h
  rw [r4, Res.ok_bind] at h
  split at h
  · cases h
  rename_i h0
  rw [Res.bind_eq_ok] at h
  obtain ⟨hd, _, h⟩ := h
  rw [r2, Res.ok_bind, Res.bind_eq_ok] at h
  obtain ⟨tl, _, h⟩ := h
  simp only at h
  split at h
  · cases h
  split at h
  · cases h
  split at h
  · cases h
  · omega

end ScannerModel

namespace TesterModel
open Go ScannerModel TreeModel FontModel CacheModel Spec Tester

variable {v : Variant} {word : Nat → Bytes} {E : Env}

/-- With a rule that the scanner refuses no sequence is processed, also if rules are too short to be added. -/
theorem unscanned_never {R : List RuleCode}
    (hR : ∀ r ∈ R, blockSize r.head + blockSize r.body + blockSize r.tail ≤ 255 ∧ 0 < blockSize r.body)
    (hl : R.length ≤ 254) {r : RuleCode} (hr : r ∈ R)
    (hs : ∀ es, scanRule v.kind (r.bytes word) ≠ .ok es) (c : Compiler) (s : SettingsCache) (w : List Nat)
    (out : World × List (List Nat)) : World.run v word E (R.map .add ++ [.seq w]) { c := c, s := s } ≠ .ok out := by
  by_cases hm : ∀ r ∈ R, v.kind.minLen ≤ (r.bytes word).length
  · exact refused_never (fun x hx => ⟨(hR x hx).1, (hR x hx).2, hm x hx⟩) hl hr hs c s w out
  · obtain ⟨y, R1, R2, h1, h2, h3⟩ : ∃ y R1 R2, R = R1 ++ y :: R2 ∧ (∀ r ∈ R1, v.kind.minLen ≤ (r.bytes word).length) ∧
        ¬ v.kind.minLen ≤ (y.bytes word).length := by
      clear hs hl hR hr
      induction R with
      | nil => exact absurd (fun r hr => by cases hr) hm
      | cons x R ih =>
        by_cases hx : v.kind.minLen ≤ (x.bytes word).length
        · obtain ⟨y, R1, R2, h1, h2, h3⟩ := ih fun hn => hm fun r hr => by
            rcases List.mem_cons.1 hr with rfl | hr
            · exact hx
            · exact hn r hr
          exact ⟨y, x :: R1, R2, by rw [h1]; rfl, fun r hr => by
            rcases List.mem_cons.1 hr with rfl | hr
            · exact hx
            · exact h2 r hr, h3⟩
        · exact ⟨x, [], R, rfl, (fun r hr => by cases hr), hx⟩
    subst h1
    intro h
    obtain ⟨T, g1, g2, g3, -⟩ := adds_sane (v := v) (word := word) (E := E) (S := fun _ => [])
      (ops := .add y :: (R2.map .add ++ [.seq w])) (R' := R1) (R := []) (W := { c := c, s := s })
      (fun x hx => ⟨(hR x (by simp [hx])).1, (hR x (by simp [hx])).2, h2 x hx⟩)
      (by simp only [List.length_append, List.length_cons] at hl; simp; omega) Sane.fresh rfl
    rw [List.map_append, List.map_cons, List.append_assoc, List.cons_append, g1] at h
    rw [World.run, Res.bind_eq_ok] at h
    obtain ⟨_, h, _⟩ := h
    simp only [World.step, addRule, g3, Nat.not_le.1 h3, if_true, stop] at h
    cases h

end TesterModel

namespace BuilderModel
open Go Spec Builder FontModel TesterModel

/-- The codes of all the rules over glyphs, whatever their outputs. -/
theorem built_glyph_wide {env : BuilderModel.Env} {b b' : Builder} {f : Font} (hr : Reachable b)
    (h : b.build env = .ok (b', f)) :
    ∃ R : List RuleCode, R.length = b.glyphRules.length ∧
      (∀ i (hi : i < R.length), f.getGlyphRule i = .ok (R[i].bytes word16)) ∧
      (∀ i (hi : i < R.length) (hj : i < b.glyphRules.length), R[i].outs.length = b.glyphRules[i].output.length ∧
        blockSize R[i].body = b.glyphRules[i].bodyLen) ∧
      ∀ r ∈ R, blockSize r.head + blockSize r.body + blockSize r.tail ≤ 255 ∧ 0 < blockSize r.body := by
  have hor := Builder.build_needs hr h
  obtain ⟨s, w, bi, hB⟩ := build_parts h
  have e0 := hB.b'_eq
  have e1 : b'.glyphRules = b.glyphRules := by rw [e0]
  have hn := hr.inv.toKept.kern.order
  have hlen : b.glyphOrder.length ≤ 56789 := by
    have := hB.count; have := hB.order
    rw [maxGlyphs] at *; omega
  have hso : b.glyphSetsOrder.length ≤ 255 := by have := hr.calls.sets; have := hor.sets; omega
  have hcodes := Builder.glyph_codes hn hlen (setsOrder_nodup hr.calls hor.sets) (by omega)
  have key : ∀ i < b.glyphRules.length, ∃ rc : RuleCode, f.getGlyphRule i = .ok (rc.bytes word16) ∧
      (∀ hj : i < b.glyphRules.length, rc.outs.length = b.glyphRules[i].output.length ∧
        blockSize rc.body = b.glyphRules[i].bodyLen) ∧
      blockSize rc.head + blockSize rc.body + blockSize rc.tail ≤ 255 ∧ 0 < blockSize rc.body := by
    intro i hi
    obtain ⟨bytes, h1, h2⟩ := built_rule hB.atGlyphRules hB.glyphRules (i := i) (by rw [e1]; exact hi)
    simp only [e1] at h1
    have hgr : b'.groupRef = b.groupRef := by rw [e0]; rfl
    have hge : b'.glyphElem = b.glyphElem := by rw [e0]; rfl
    rw [hgr, hge] at h1
    have hm := List.getElem_mem hi
    obtain ⟨bits, ho, a5⟩ := hr.madeRules.2 _ hm
    obtain ⟨rc, rfl, hcond, r1, r2, r3, r4, r5, r6, r7, r8, r9⟩ := Builder.ruleBytes_enc hcodes ho h1
    have := ho.len
    have := ho.le
    have := hor.bodies _ hm
    exact ⟨rc, by rw [Font.getGlyphRule]; exact h2, fun _ => ⟨r7, r5⟩, by omega, by omega⟩
  obtain ⟨R, g1, g2⟩ := codes_list key
  refine ⟨R, g1, fun i hi => (g2 i hi).1, fun i hi hj => (g2 i hi).2.1 hj, fun r hm => ?_⟩
  obtain ⟨i, hi, rfl⟩ := List.getElem_of_mem hm
  exact (g2 i hi).2.2

end BuilderModel
