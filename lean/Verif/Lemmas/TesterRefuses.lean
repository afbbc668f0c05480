import Verif.Lemmas.ScanRefuses
import Verif.Lemmas.TesterNeeds

/-!
# Testers with rules that the scanner refuses
-/

namespace TreeModel
open Go ScannerModel

theorem feedLoop_scans {k : Kind} {mv : Nat → Bool} {sets : Sets} {hl : Nat} : ∀ {fuel : Nat} {s : Scanner}
    {froms : List Nat} {c c' : Compiler}, feedLoop k mv sets hl fuel s froms c = .ok c' → ∃ es, scan k fuel s = .ok es
  | 0, s, froms, c, c', h => by
    rw [feedLoop] at h
    rw [scan]
    split at h
    · cases h
    · rename_i hn; exact ⟨[], by rw [if_neg hn]⟩
  | fuel + 1, s, froms, c, c', h => by
    rw [feedLoop] at h
    rw [scan]
    split at h
    · rename_i hn
      simp only [Res.bind_eq_ok] at h
      obtain ⟨⟨s1, e, g⟩, h1, ⟨f1, c1⟩, h2, h3⟩ := h
      obtain ⟨es, h4⟩ := feedLoop_scans h3
      refine ⟨(s.block, e, g) :: es, ?_⟩
      rw [if_pos hn, h1, Res.ok_bind]
      simp only
      rw [h4]
      rfl
    · rename_i hn; exact ⟨[], by rw [if_neg hn]⟩

/-- The scanner takes rules that are fed. -/
theorem feed_scans {k : Kind} {mv : Nat → Bool} {sets : Sets} {c c' : Compiler} {rule : Bytes} {i : Nat}
    (h : feed k mv sets c rule i = .ok c') : ∃ es, scanRule k rule = .ok es := by
  unfold feed at h
  split at h
  · cases h
  simp only [Res.bind_eq_ok] at h
  obtain ⟨s, h1, n, _, h3⟩ := h
  rw [scanRule, h1, Res.ok_bind]
  exact feedLoop_scans h3

theorem feedAll_scans {k : Kind} {mv : Nat → Bool} {sets : Sets} : ∀ {l : List (Bytes × Nat)} {c c' : Compiler},
    feedAll k mv sets l c = .ok c' → ∀ x ∈ l, ∃ es, scanRule k x.1 = .ok es
  | [], _, _, _, _, hx => by cases hx
  | y :: l, c, c', h, x, hx => by
    rw [feedAll, Res.bind_eq_ok] at h
    obtain ⟨c1, h1, h2⟩ := h
    rcases List.mem_cons.1 hx with rfl | hx
    · exact feed_scans h1
    · exact feedAll_scans h2 x hx

/-- The scanner takes rules that are compiled. -/
theorem compile_scans {k : Kind} {mv : Nat → Bool} {sets : Sets} {l : List (Bytes × Nat)} {c : Compiler}
    {out : List State × Compiler} (h : compile k mv sets l c = .ok out) : ∀ x ∈ l, ∃ es, scanRule k x.1 = .ok es := by
  unfold compile at h
  simp only [Res.bind_eq_ok] at h
  obtain ⟨c1, _, c2, h2, _⟩ := h
  exact feedAll_scans h2

end TreeModel

namespace TesterModel
open Go ScannerModel TreeModel FontModel CacheModel Spec Tester

variable {v : Variant} {word : Nat → Bytes} {E : Env}

theorem rok_wide {ok : Nat → Prop} (hw : 0 < v.kind.width) (hlen : ∀ x, (word x).length = v.kind.width)
    (hdec : ∀ x y, ok x → v.kind.decode (word x ++ y) = .ok x) (hmin : v.kind.minLen ≤ 9 + v.kind.width)
    (hw4 : v.kind.width ≤ 4) {r : RuleCode} (h : r.Ok ok) : Rok v word r := by
  have hc : Coded (v.kind.lax 0) word ok := ⟨hw, hlen, hdec, fun _ _ => rfl⟩
  have h1 : (v.kind.lax 0).minLen ≤ (r.bytes word).length := scanRule_min (scanRule_ok hc hmin hw4 r h)
  exact ⟨h.total, Nat.lt_of_lt_of_le h.outPos h.outLe, h1⟩

theorem rok_glyph_wide {r : RuleCode} (h : r.Ok (· < 65536)) : Rok glyphV word16 r :=
  rok_wide (v := glyphV) (by decide) (fun _ => rfl) glyph_dec (by decide) (by decide) h

theorem rok_utf8_wide {r : RuleCode} (h : r.Ok (· < 4294967296)) : Rok utf8V word32 r :=
  rok_wide (v := utf8V) (by decide) (fun _ => rfl) utf8_dec (by decide) (by decide) h

/-- With a rule that is refused no sequence is processed. -/
theorem refused_never {R : List RuleCode} (hR : ∀ r ∈ R, Rok v word r) (hl : R.length ≤ 254) {r : RuleCode} (hr : r ∈ R)
    (hs : ∀ es, scanRule v.kind (r.bytes word) ≠ .ok es) (c : Compiler) (s : SettingsCache) (w : List Nat)
    (out : World × List (List Nat)) : World.run v word E (R.map .add ++ [.seq w]) { c := c, s := s } ≠ .ok out := by
  intro h
  obtain ⟨c1, q, hc⟩ := sequence_needs hR hl h hr
  obtain ⟨j, hj, he⟩ := List.getElem_of_mem hr
  obtain ⟨es, h1⟩ := compile_scans hc (r.bytes word, j) (List.mem_map.2 ⟨(r, j), List.mem_filter.2
    ⟨List.mem_zipIdx_iff_getElem?.2 (by rw [List.getElem?_eq_getElem hj, he]), by simp⟩, rfl⟩)
  exact hs es h1

end TesterModel
