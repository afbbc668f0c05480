import Verif.Lemmas.MappingCacheLru
import Verif.Spec.SampleCaches

/-!
# C26: the mapping cache evicts the least recently used entry

It does not. The list of entries starts with the most recently used entry unset, so that the last
entry of a fresh cache never moves: for every size from 2 on, once the cache is full the next miss
replaces the entry that was used last. What holds: the capacity is respected, the code point used last
is a hit, and a miss evicts at most one code point. With one entry this is the property.
-/

namespace C26
open Go Spec FontModel CacheModel BuilderModel

/-- After any history (also with panics) the cache has at most `size` code points, all different. -/
theorem capacity (f : Font) (size : Int) (m : MappingCache) (s : SettingsCache)
    (hm : MappingCache.new f size = .ok m) (ops : List Lookup.Op) :
    ((Lookup.codeState m s ops).1.cached.length : Int) ≤ size ∧
    (Lookup.codeState m s ops).1.cached.keys.Nodup := by
  simp only [MappingCache.new, ite_panic] at hm
  obtain ⟨h1, h2, hm⟩ := hm
  simp only [Res.ok.injEq] at hm
  subst hm
  obtain ⟨h3, h4⟩ := codeState_keys ops (s := s)
    (KeyInv.fresh (f := f) (d := 0) (n := size.toNat) (by omega) (by omega))
  have := h3.capacity
  rw [h4] at this
  have hl : (MappingCache.linked size.toNat).length = size.toNat := by simp [MappingCache.linked]
  simp only [hl] at this
  exact ⟨by omega, h3.nodup⟩

/-- After any history: a lookup that finds a group leaves its code point in the cache; a hit and a
lookup that finds nothing change no code points; and a miss evicts at most one code point. -/
theorem evicts_one_partial (f : Font) (size : Int) (m : MappingCache) (s : SettingsCache)
    (hm : MappingCache.new f size = .ok m) (ops : List Lookup.Op) (c : Int) (g : Option Font.Group)
    (m' : MappingCache) (s' : SettingsCache)
    (hg : (Lookup.codeState m s ops).1.get c (Lookup.codeState m s ops).2 = .ok (m', s', g)) :
    (g ≠ none → c ∈ m'.cached.keys) ∧
    (c ∈ (Lookup.codeState m s ops).1.cached.keys →
      m'.cached.keys = (Lookup.codeState m s ops).1.cached.keys) ∧
    (g = none → m'.cached.keys = (Lookup.codeState m s ops).1.cached.keys) ∧
    (c ∉ (Lookup.codeState m s ops).1.cached.keys → g ≠ none → ∃ x, ∀ y,
      y ∈ m'.cached.keys ↔ y = c ∨ (y ≠ x ∧ y ∈ (Lookup.codeState m s ops).1.cached.keys)) := by
  simp only [MappingCache.new, ite_panic] at hm
  obtain ⟨h1, h2, hm⟩ := hm
  simp only [Res.ok.injEq] at hm
  subst hm
  obtain ⟨h3, h4⟩ := codeState_keys ops (s := s)
    (KeyInv.fresh (f := f) (d := 0) (n := size.toNat) (by omega) (by omega))
  revert hg h3
  generalize Lookup.codeState _ s ops = st
  obtain ⟨m1, s1⟩ := st
  intro hg h3
  obtain ⟨_, _, q1, q2, q3⟩ := get_keys h3 hg
  simp only
  have hset : ∀ x y, y ∈ ((m1.cached.delete x).set c m1.lru).keys ↔ y = c ∨ (y ≠ x ∧ y ∈ m1.cached.keys) := by
    intro x y
    rw [GoMap.keys_set, GoMap.keys_delete]
    split
    · rename_i h
      rw [List.mem_filter] at h ⊢
      simp only [decide_eq_true_eq] at h ⊢
      constructor
      · rintro ⟨a, b⟩; exact .inr ⟨b, a⟩
      · rintro (rfl | ⟨a, b⟩)
        · exact h
        · exact ⟨b, a⟩
    · simp only [List.mem_append, List.mem_filter, List.mem_singleton, decide_eq_true_eq]
      constructor
      · rintro (⟨a, b⟩ | rfl)
        · exact .inr ⟨b, a⟩
        · exact .inl rfl
      · rintro (rfl | ⟨a, b⟩)
        · exact .inr rfl
        · exact .inl ⟨b, a⟩
  refine ⟨?_, ?_, ?_, ?_⟩
  · intro hn
    cases hc : m1.cached.get c with
    | none =>
      obtain ⟨x, hx⟩ := q3 hc hn
      rw [hx, hset]
      exact .inl rfl
    | some i =>
      rw [q1 (by rw [hc]; simp)]
      exact Decidable.not_not.1 (mt GoMap.get_eq_none.2 (by rw [hc]; simp))
  · intro hin
    rw [q1 (fun h => GoMap.get_eq_none.1 h hin)]
  · intro hn
    cases hc : m1.cached.get c with
    | none => rw [q2 hc hn]
    | some i => rw [q1 (by rw [hc]; simp)]
  · intro hout hn
    obtain ⟨x, hx⟩ := q3 (GoMap.get_eq_none.2 hout) hn
    exact ⟨x, by rw [hx]; exact hset x⟩

/-- With one entry the cache has exactly the code point that was used last. -/
theorem size_one_partial (f : Font) (m : MappingCache) (s : SettingsCache)
    (hm : MappingCache.new f 1 = .ok m) (ops : List Lookup.Op) (c : Int) (g : Font.Group)
    (m' : MappingCache) (s' : SettingsCache)
    (hg : (Lookup.codeState m s ops).1.get c (Lookup.codeState m s ops).2 = .ok (m', s', some g)) :
    m'.cached.keys = [c] := by
  have h1 := (evicts_one_partial f 1 m s hm ops c (some g) m' s' hg).1 (by simp)
  have hst : (Lookup.codeState m s (ops ++ [.lookup c])).1 = m' := by
    have gen : ∀ (ops : List Lookup.Op) (m : MappingCache) (s : SettingsCache),
        Lookup.codeState m s (ops ++ [.lookup c]) =
          (Lookup.codeStep (Lookup.codeState m s ops).1 (Lookup.codeState m s ops).2 (.lookup c)).2 := by
      intro ops
      induction ops with
      | nil => intro m s; rfl
      | cons op ops ih => intro m s; exact ih _ _
    rw [gen]
    simp only [Lookup.codeStep, hg]
  have h2 := (capacity f 1 m s hm (ops ++ [.lookup c])).1
  rw [hst] at h2
  have h3 : m'.cached.keys.length ≤ 1 := by
    simp only [GoMap.keys, List.length_map]; omega
  revert h1 h3
  cases m'.cached.keys with
  | nil => simp
  | cons a l =>
    intro h1 h3
    simp only [List.length_cons] at h3
    have : l = [] := List.length_eq_zero_iff.1 (by omega)
    subst this
    simp only [List.mem_singleton] at h1
    rw [h1]

/-- For every font and every size from 2 on: look up one more code point than fit, all different. The
code point before the last one has been evicted, although all others were used before it. -/
theorem lru_violated (f : Font) (size : Nat) (h2 : 2 ≤ size) (m : MappingCache) (s : SettingsCache)
    (hm : MappingCache.new f size = .ok m) (hs : SettingsCache.new f = .ok s) (n : Nat)
    (hn : f.numSettings = .ok n) (cs : List Int) (a b : Int) (hlen : cs.length + 1 = size)
    (hnd : (cs ++ [a, b]).Nodup) (h0 : 0 ∉ cs ++ [a, b])
    (hmap : ∀ c ∈ cs ++ [a, b], ∃ g, f.utf8 (runeBits c) (List.replicate n 0) = .ok (some g)) :
    ∃ m' s', Lookup.lookups m s (cs ++ [a, b]) = .ok (m', s') ∧ a ∉ m'.cached.keys ∧
      (∀ c ∈ cs, c ∈ m'.cached.keys) ∧ b ∈ m'.cached.keys := by
  simp only [MappingCache.new, ite_panic] at hm
  obtain ⟨hz, hz2, hm⟩ := hm
  simp only [Res.ok.injEq, Int.toNat_natCast] at hm
  have hs' := id hs
  simp only [SettingsCache.new, Res.bind_eq_ok] at hs'
  obtain ⟨n', e1, k, e2, j, e3, _⟩ := hs'
  rw [hn, Res.ok.injEq] at e1
  subst e1
  obtain ⟨c, q1, q2⟩ := Coherent.new hn e2 e3
  rw [hs, Res.ok.injEq] at q1
  subst q1
  rw [List.nodup_append] at hnd
  obtain ⟨d1, d2, d3⟩ := hnd
  have hab : a ≠ b := by simpa using d2
  have ha : a ∉ cs := fun h => d3 a h a (by simp) rfl
  have hb : b ∉ cs := fun h => d3 b h b (by simp) rfl
  have ha0 : a ≠ 0 := by rintro rfl; exact h0 (by simp)
  have hb0 : b ≠ 0 := by rintro rfl; exact h0 (by simp)
  have hc0 : (0 : Int) ∉ cs := fun h => h0 (by simp [h])
  obtain ⟨m1, s1, r1, r2, r3, r4⟩ := fill_run (n := size) (by omega) cs [] (s := s) (m := m)
    (by rw [← hm]) (by rw [← hm]; exact Fill.fresh (by omega)) q2 (by simpa using d1) (by simpa using hc0)
    (by simp; omega) (fun c hc => hmap c (by simp [hc]))
  rw [List.nil_append] at r3
  obtain ⟨ga, hga⟩ := hmap a (by simp)
  obtain ⟨s2, u2, v2⟩ := (utf8WithCache_eq r4 _ _).1 hga
  obtain ⟨m2, w1, w2, w3⟩ := (r3.stuck hlen).step (s := s1) (by omega) ha ha0 ha0 hc0 (by rw [r2]; exact u2)
  obtain ⟨gb, hgb⟩ := hmap b (by simp)
  obtain ⟨s3, u3, v3⟩ := (utf8WithCache_eq v2 _ _).1 hgb
  obtain ⟨m3, x1, x2, x3⟩ := w2.step (s := s2) (by omega) hb hab.symm hb0 ha (by rw [w3, r2]; exact u3)
  have key : ∀ c, c ∈ m3.cached.keys ↔ c ∈ cs ∨ (c = b ∧ b ≠ 0) := by
    intro c
    rw [← x2.keys c, Ne, GoMap.get_eq_none, Decidable.not_not]
  refine ⟨m3, s3, ?_, ?_, ?_, ?_⟩
  · rw [lookups_append, r1, Res.ok_bind]
    simp only [Lookup.lookups, w1, Res.ok_bind, x1]
  · rw [key]
    rintro (h | h)
    · exact ha h
    · exact hab h.1
  · intro c hc; rw [key]; exact .inl hc
  · rw [key]; exact .inr ⟨rfl, hb0⟩

/-- A cache that is not full also evicts: after A, B, A with three entries, C replaces B. -/
theorem free_entry_violated :
    MappingCache.new Sample.mappedFont 3 = .ok (Sample.mapping 3) ∧
    Sample.cachedAfter 3 [65, 66, 65] = .ok [65, 66] ∧
    Sample.cachedAfter 3 [65, 66, 65, 67] = .ok [65, 67] := by
  decide +kernel

/-- The hypotheses of `lru_violated` for a font and three entries. -/
example : MappingCache.new Sample.mappedFont 3 = .ok (Sample.mapping 3) ∧
    SettingsCache.new Sample.mappedFont = .ok Sample.settings ∧
    Sample.mappedFont.numSettings = .ok 1 ∧
    (∀ c ∈ [65, 66] ++ [67, 68], (Sample.val none
      (Sample.mappedFont.utf8 (runeBits c) (List.replicate 1 0))).isSome = true) ∧
    Sample.cachedAfter 3 ([65, 66] ++ [67, 68]) = .ok [65, 66, 68] := by
  decide +kernel

/-- One entry. -/
example : Sample.cachedAfter 1 [65, 66, 66, 67, 71] = .ok [67] := by decide +kernel

end C26
