import Verif.Lemmas.TesterSeq
import Verif.Spec.TesterUse

/-!
# Compiling the rules of a tester
-/

namespace TesterModel
open Go Helpers ScannerModel TreeModel FontModel CacheModel Spec Tester

variable {S : Nat → List Nat} {sets : TreeModel.Sets}

section
variable {v : Variant} {word : Nat → Bytes} {R : List RuleCode}

theorem Rok.inLen {r : RuleCode} (h : Rok v word r) : Rule.inLen (r.bytes word) = .ok r.size := by
  obtain ⟨h1, h2, h3, _⟩ := h.lens
  unfold Rule.headLen at h1
  unfold Rule.bodyLen at h2
  unfold Rule.tailLen at h3
  have ht := h.total
  unfold Rule.inLen
  rw [h1, Res.ok_bind, h2, Res.ok_bind, h3, Res.ok_bind]
  simp only [Res.pure_eq, Res.ok.injEq]
  have := size_eq r
  simp only [u8]
  omega

theorem maxInLen_ok : ∀ {R : List RuleCode} {n : Nat}, (∀ r ∈ R, Rok v word r) →
    ∃ m, maxInLen (R.map (RuleCode.bytes word)) n = .ok m ∧ n ≤ m ∧ (∀ r ∈ R, r.size ≤ m) ∧ (n ≤ 255 → m ≤ 255)
  | [], n, _ => ⟨n, rfl, Nat.le_refl _, by simp, id⟩
  | r :: R, n, h => by
    have hr := h r List.mem_cons_self
    have hs := size_eq r
    have ht := hr.total
    obtain ⟨m, h1, h2, h3, h4⟩ := maxInLen_ok (n := max n r.size) (fun x hx => h x (List.mem_cons_of_mem _ hx))
    refine ⟨m, ?_, by omega, ?_, fun hn => h4 (by omega)⟩
    · rw [List.map_cons, maxInLen, hr.inLen, Res.ok_bind]
      exact h1
    · intro x hx
      rcases List.mem_cons.1 hx with rfl | hx
      · omega
      · exact h3 x hx

theorem rulesWith_ok (c : Nat) : ∀ {R : List RuleCode} {n : Nat}, (∀ r ∈ R, Rok v word r) → R.length + n ≤ 255 →
    rulesWith c (R.map (RuleCode.bytes word)) n =
      .ok (((R.zipIdx n).filter fun x => decide (x.1.condition.toNat = c)).map fun x => (x.1.bytes word, x.2))
  | [], n, _, _ => rfl
  | r :: R, n, h, hl => by
    rw [List.length_cons] at hl
    rw [List.map_cons, rulesWith, (h r List.mem_cons_self).lens.2.2.2, Res.ok_bind,
      rulesWith_ok c (fun x hx => h x (List.mem_cons_of_mem _ hx)) (by omega), Res.ok_bind]
    have hu : u8 n = n := by simp only [u8]; omega
    rw [hu, List.zipIdx_cons, List.filter_cons]
    by_cases hc : r.condition.toNat = c
    · rw [if_pos hc, if_pos (by simpa using hc)]
      rfl
    · rw [if_neg hc, if_neg (by simpa using hc)]
      rfl

/-- Rules that have inputs and are compiled as they should. -/
def Compiles (sets : TreeModel.Sets) (S : Nat → List Nat) (v : Variant) (word : Nat → Bytes) (R : List RuleCode) : Prop :=
  (∀ r ∈ R, ∃ p, p ∈ r.inputs S) ∧ ∀ (cond : Nat) (mv : Nat → Bool) (c : Compiler), c.compiling = false →
    ∃ T c', compile v.kind mv sets ((R.zipIdx.filter fun x => decide (x.1.condition.toNat = cond)).map
        fun x => (x.1.bytes word, x.2)) c = .ok (T, c') ∧ c'.compiling = false ∧
      ((R.zipIdx.filter fun x => decide (x.1.condition.toNat = cond)) ≠ [] →
        Recognises T ((R.zipIdx.filter fun x => decide (x.1.condition.toNat = cond)).flatMap (fedsOf S)))

/-- The compilation of the rules with a condition. -/
theorem compile_group (hR : RulesOk v word R) (hsum : Compiles sets S v word R) (cond : Nat)
    {mv : Nat → Bool} {c : Compiler} (hc : c.compiling = false) :
    ∃ mine c1 c2 T c', begin c = .ok c1 ∧ rulesWith cond (R.map (RuleCode.bytes word)) 0 = .ok mine ∧
      (mine.length = 0 ↔ fedGroup S R cond = []) ∧
      feedAll v.kind mv sets mine c1 = .ok c2 ∧ finish c2 = .ok (T, c') ∧ c'.compiling = false ∧
      (fedGroup S R cond ≠ [] → Recognises T (fedGroup S R cond)) := by
  have hl := hR.len
  have h1 := rulesWith_ok cond (n := 0) hR.ok (by omega)
  have hz : ∀ x ∈ (R.zipIdx.filter fun x => decide (x.1.condition.toNat = cond)), x.1 ∈ R ∧ x.2 < R.length := by
    intro x hx
    have := (List.mem_filter.1 hx).1
    have hg := List.mem_zipIdx_iff_getElem?.1 this
    exact ⟨List.mem_of_getElem? hg, (List.getElem?_eq_some_iff.1 hg).1⟩
  obtain ⟨T, c', h2, h3, h4⟩ := hsum.2 cond mv c hc
  unfold fedGroup
  generalize (R.zipIdx.filter fun x => decide (x.1.condition.toNat = cond)) = L at h1 hz h2 h4 ⊢
  · unfold compile at h2
    obtain ⟨c1, h5, h6⟩ := Res.bind_eq_ok.1 h2
    obtain ⟨c2, h7, h8⟩ := Res.bind_eq_ok.1 h6
    have hnil : L.flatMap (fedsOf S) = [] ↔ L = [] := by
      constructor
      · intro h
        rcases L with _ | ⟨x, L⟩
        · rfl
        · obtain ⟨p, hp⟩ := hsum.1 x.1 (hz x (by simp)).1
          have : (⟨p, blockSize x.1.head, x.2⟩ : Fed) ∈ (x :: L).flatMap (fedsOf S) :=
            List.mem_flatMap.2 ⟨x, by simp, List.mem_map.2 ⟨p, hp, rfl⟩⟩
          rw [h] at this
          exact absurd this List.not_mem_nil
      · rintro rfl
        rfl
    refine ⟨_, c1, c2, T, c', h5, h1, ?_, h7, h8, h3, ?_⟩
    · rw [List.length_map, List.length_eq_zero_iff, hnil]
    · intro hne
      exact h4 fun h => hne (hnil.2 h)

variable {f : Font} {C : Nat → Prop} {e : Nat → Bool} {P : SettingsCache → Prop}

theorem compileTrees_ok (hR : RulesOk v word R) (hsum : Compiles sets S v word R)
    (hP : ∀ s, P s → ∀ c, C c → ∃ s', testCondition f c s = .ok (s', e c) ∧ P s') {mv : Nat → Bool} :
    ∀ {l : List Inst} {c : Compiler} {s : SettingsCache}, c.compiling = false → P s →
      (∀ t ∈ l, t.resync = true ∧ C t.condition) →
      ∃ l' c' s', compileTrees v.kind mv sets f (R.map (RuleCode.bytes word)) l c s = .ok (l', c', s', none) ∧
        c'.compiling = false ∧ P s' ∧ Good (fedGroup S R) l' ∧
        l'.map (·.condition) = (l.map (·.condition)).filter (fun c => !(fedGroup S R c).isEmpty) ∧
        (∀ t ∈ l', t.resync = true ∧ C t.condition) ∧
        (∀ t ∈ l', t.cached = true ∧ (t.value = e t.condition ∨ ∃ t0 ∈ l, t0.condition = t.condition ∧
          t0.cached = true ∧ t0.value = t.value))
  | [], c, s, hc, hs, _ => ⟨[], c, s, rfl, hc, hs, by simp [Good], rfl, by simp, by simp⟩
  | t :: l, c, s, hc, hs, ht => by
    obtain ⟨ht1, ht2⟩ := ht t List.mem_cons_self
    have key : ∃ s1 t1, (if (!t.cached) = true then do
          let (s, satisfied) ← testCondition f t.condition s
          return (s, { t with value := satisfied, cached := true })
        else return (s, t) : Res (SettingsCache × Inst)) = .ok (s1, t1) ∧ P s1 ∧ t1.condition = t.condition ∧
          t1.resync = true ∧ t1.cached = true ∧ (t1.value = e t.condition ∨ (t.cached = true ∧ t.value = t1.value)) := by
      cases hcach : t.cached with
      | false =>
        rw [if_pos (by rfl)]
        obtain ⟨s', h1, h2⟩ := hP s hs _ ht2
        rw [h1]
        exact ⟨s', _, rfl, h2, rfl, ht1, rfl, Or.inl rfl⟩
      | true => exact ⟨s, t, rfl, hs, rfl, ht1, hcach, Or.inr ⟨rfl, rfl⟩⟩
    obtain ⟨s1, t1, k1, k2, k3, k4, k5, k6⟩ := key
    obtain ⟨mine, c1, c2, T, c3, g1, g2, g3, g4, g5, g6, g7⟩ := compile_group hR hsum t.condition (mv := mv) hc
    obtain ⟨l', c', s', i1, i2, i3, i4, i5, i6, i7⟩ := compileTrees_ok hR hsum hP (l := l) (c := c3) (s := s1) g6 k2
      (fun x hx => ht x (List.mem_cons_of_mem _ hx))
    rw [compileTrees, k1, Res.ok_bind]
    simp only
    rw [if_pos k4, g1, Res.ok_bind, k3, g2, Res.ok_bind, g4]
    simp only
    rw [g5, Res.ok_bind]
    simp only
    rw [i1, Res.ok_bind]
    simp only [Res.pure_eq]
    have i7' : ∀ t' ∈ l', t'.cached = true ∧ (t'.value = e t'.condition ∨ ∃ t0 ∈ t :: l, t0.condition = t'.condition ∧
          t0.cached = true ∧ t0.value = t'.value) := by
      intro x hx
      obtain ⟨a, b⟩ := i7 x hx
      refine ⟨a, b.imp id ?_⟩
      rintro ⟨t0, h0, h1⟩
      exact ⟨t0, List.mem_cons_of_mem _ h0, h1⟩
    by_cases hm : mine.length = 0
    · refine ⟨_, _, _, rfl, i2, i3, ?_⟩
      rw [if_pos hm]
      refine ⟨i4, ?_, i6, i7'⟩
      rw [i5, List.map_cons, List.filter_cons, if_neg]
      simp [g3.1 hm]
    · refine ⟨_, _, _, rfl, i2, i3, ?_⟩
      rw [if_neg hm]
      have hne : fedGroup S R t.condition ≠ [] := by
        exact fun h => hm (g3.2 h)
      refine ⟨?_, ?_, ?_, ?_⟩
      · intro x hx
        rcases List.mem_cons.1 hx with rfl | hx
        · simp only [k3]
          exact g7 hne
        · exact i4 x hx
      · rw [List.map_cons, List.map_cons, List.filter_cons, if_pos (by simp [hne]), i5]
      · intro x hx
        rcases List.mem_cons.1 hx with rfl | hx
        · exact ⟨k4, by simp only [k3]; exact ht2⟩
        · exact i6 x hx
      · intro x hx
        rcases List.mem_cons.1 hx with rfl | hx
        · refine ⟨k5, ?_⟩
          simp only [k3]
          refine k6.imp id ?_
          rintro ⟨a, b⟩
          exact ⟨t, List.mem_cons_self, rfl, a, b⟩
        · exact i7' x hx

end

end TesterModel
