import Verif.Lemmas.MappingCache

/-! # The mapping cache refines direct lookups -/

namespace CacheModel
open Go Helpers FontModel Spec
open BuilderModel (GoMap ite_panic)

/-- The group held by an entry. -/
def Entry.group (e : Entry) : Font.Group :=
  { offset := e.offset, switchType := e.switchType, caseBranch := e.caseBranch, direct := e.direct }

/-- The entry holds a group of the code point, for some case. -/
structure Holds (f : Font) (target : Nat) (e : Entry) : Prop where
  found : ∃ s en maps, f.findEntry target = .ok (some (e.switchType, s, en, maps)) ∧
    (e.switchType = 255 → e.offset = maps + s ∧ e.caseBranch = 0 ∧ e.direct = true) ∧
    (e.switchType ≠ 255 → e.direct = false ∧
      ∃ s', Font.staircase f.data maps en e.caseBranch s = .ok s' ∧ e.offset = maps + s') ∧
    (e.switchType = 254 → e.caseBranch = 0)

/-- The case is the current one. -/
def Current (f : Font) (settings : List Nat) (e : Entry) : Prop :=
  e.switchType < 254 → f.evaluateSwitch e.switchType settings = .ok e.caseBranch

theorem Holds.direct {f : Font} {target : Nat} {e : Entry} {settings : List Nat}
    (h : Holds f target e) (hc : Current f settings e) :
    f.utf8 target settings = .ok (some e.group) := by
  obtain ⟨s, en, maps, h1, h2, h3, h4⟩ := h.found
  have ht := findEntry_type h1
  rw [Font.utf8, h1, Res.ok_bind]
  simp only
  by_cases h5 : e.switchType = 255
  · obtain ⟨q1, q2, q3⟩ := h2 h5
    rw [if_pos h5]
    simp only [Res.pure_eq, Entry.group, q1, q2, q3]
  · obtain ⟨q1, s', q2, q3⟩ := h3 h5
    rw [if_neg h5]
    by_cases h6 : e.switchType = 254
    · rw [if_neg (by simpa using h6), Res.ok_bind]
      have h7 := h4 h6
      rw [h7] at q2
      rw [q2]
      simp only [Res.ok_bind, Res.pure_eq, Entry.group, q1, q3, h7]
    · rw [if_pos h6, hc (by omega), Res.ok_bind, q2]
      simp only [Res.ok_bind, Res.pure_eq, Entry.group, q1, q3]

theorem Holds.of {f : Font} {target : Nat} {e : Entry} {settings : List Nat}
    (h : f.utf8 target settings = .ok (some e.group)) :
    Holds f target e ∧ Current f settings e := by
  simp only [Font.utf8, Res.bind_eq_ok] at h
  obtain ⟨x, hx, h⟩ := h
  cases x with
  | none => simp [Res.pure_eq] at h
  | some x =>
    obtain ⟨t, s, en, maps⟩ := x
    simp only at h
    by_cases h5 : t = 255
    · rw [if_pos h5] at h
      simp only [Res.pure_eq, Entry.group, Res.ok.injEq, Option.some.injEq, Font.Group.mk.injEq] at h
      obtain ⟨q1, q2, q3, q4⟩ := h
      refine ⟨⟨s, en, maps, by rw [← q2]; exact hx, fun _ => ⟨q1.symm, q3.symm, q4.symm⟩, ?_, ?_⟩, ?_⟩
      · intro hh; omega
      · intro hh; omega
      · intro hh; omega
    · rw [if_neg h5] at h
      by_cases h6 : t = 254
      · rw [if_neg (by simpa using h6)] at h
        simp only [Res.bind_eq_ok, Res.ok.injEq, Res.pure_eq, Entry.group, Option.some.injEq,
          Font.Group.mk.injEq] at h
        obtain ⟨v, rfl, s', hs, q1, q2, q3, q4⟩ := h
        refine ⟨⟨s, en, maps, by rw [← q2]; exact hx, ?_, ?_, fun _ => q3.symm⟩, ?_⟩
        · intro hh; omega
        · intro _
          exact ⟨q4.symm, s', by rw [← q3]; exact hs, q1.symm⟩
        · intro hh; omega
      · rw [if_pos h6] at h
        simp only [Res.bind_eq_ok, Res.pure_eq, Entry.group, Res.ok.injEq, Option.some.injEq,
          Font.Group.mk.injEq] at h
        obtain ⟨v, hv, s', hs, q1, q2, q3, q4⟩ := h
        refine ⟨⟨s, en, maps, by rw [← q2]; exact hx, ?_, ?_, ?_⟩, ?_⟩
        · intro hh; omega
        · intro _
          exact ⟨q4.symm, s', by rw [← q3]; exact hs, q1.symm⟩
        · intro hh; omega
        · intro _
          rw [← q2, ← q3]; exact hv

/-- The invariant. -/
structure CacheInv (f : Font) (settings : List Nat) (m : MappingCache) : Prop where
  font : m.font = f
  links : LinkInv m
  nodup : m.cached.keys.Nodup
  values : ∀ c i, m.cached.get c = some i → ∃ e, (m.entries.map Entry.payload)[i]? = some e ∧
    e.codePoint = c ∧ Holds f (runeBits c) e ∧ e.drop ≤ m.drop ∧
    (e.drop = m.drop → Current f settings e)

theorem holds_payload {f : Font} {t : Nat} {e : Entry} : Holds f t e.payload ↔ Holds f t e :=
  ⟨fun h => ⟨h.found⟩, fun h => ⟨h.found⟩⟩

theorem view_some (g : Font.Group) : Lookup.view (some g) = .group g.offset g.caseBranch g.direct := rfl

/-- A lookup. -/
theorem get_eq {f : Font} {settings : List Nat} {m : MappingCache} {s : SettingsCache}
    (h : CacheInv f settings m) (hs : Coherent f settings s) (c : Int) :
    (∃ m' s' g g', m.get c s = .ok (m', s', g) ∧ f.utf8 (runeBits c) settings = .ok g' ∧
      Lookup.view g = Lookup.view g' ∧ CacheInv f settings m' ∧ Coherent f settings s' ∧
      m'.drop = m.drop ∧ m'.entries.length = m.entries.length ∧
      (g.isSome → (m'.cached.get c).isSome)) ∨
    ((∀ x, m.get c s ≠ .ok x) ∧ ∀ g, f.utf8 (runeBits c) settings ≠ .ok g) := by
  have hrb : (c % 4294967296).toNat = runeBits c := rfl
  rw [MappingCache.get, hrb]
  cases hc : m.cached.get c with
  | some i =>
    obtain ⟨e, he, hcp, hh, hle, hcur⟩ := h.values c i hc
    have hi : i < m.entries.length := by
      have := (List.getElem?_eq_some_iff.1 he).1
      simpa using this
    obtain ⟨m1, hm1, k1, k2, k3, k4, k5, k6⟩ := updateMRU_ok h.links hi
    have hi1 : i < m1.entries.length := by omega
    have hp1 : (m1.entries[i]'hi1).payload = e := by
      rw [← k6, List.getElem?_map, List.getElem?_eq_getElem hi1] at he
      simpa using he
    simp only
    rw [idx_lt hi, Res.ok_bind, hm1, Res.ok_bind, idx_lt hi1, Res.ok_bind]
    have f1 : (m1.entries[i]'hi1).drop = e.drop := by rw [← hp1]; rfl
    have f2 : (m1.entries[i]'hi1).switchType = e.switchType := by rw [← hp1]; rfl
    have f3 : (m1.entries[i]'hi1).caseBranch = e.caseBranch := by rw [← hp1]; rfl
    have f4 : (m1.entries[i]'hi1).offset = e.offset := by rw [← hp1]; rfl
    have f5 : (m1.entries[i]'hi1).direct = e.direct := by rw [← hp1]; rfl
    have f6 : (m1.entries[i]'hi1).codePoint = e.codePoint := by rw [← hp1]; rfl
    -- the invariant after an assignment to the entry
    have hset : ∀ e' : Entry, e'.prev = (m1.entries[i]'hi1).prev → e'.next = (m1.entries[i]'hi1).next →
        e'.codePoint = c → e'.drop = m1.drop → Holds f (runeBits c) e' → Current f settings e' →
        CacheInv f settings { m1 with entries := m1.entries.set i e' } := by
      intro e' h1 h2 h3 h4 h5 h6
      refine ⟨by simp only; rw [k3]; exact h.font, ⟨?_, ?_, ?_, ?_⟩, ?_, ?_⟩
      · simpa using k1.size
      · simpa using k1.lru
      · simpa using k1.mru
      · simp only [List.length_set]
        intro x hx
        rcases List.mem_or_eq_of_mem_set hx with hx | rfl
        · exact k1.links x hx
        · rw [h1, h2]
          exact k1.links _ (List.getElem_mem hi1)
      · simp only; rw [k5]; exact h.nodup
      · intro c' i' hc'
        simp only [k5] at hc'
        obtain ⟨x, x1, x2, x3, x4, x5⟩ := h.values c' i' hc'
        simp only [List.map_set]
        by_cases hii : i' = i
        · subst hii
          have : c' = c := by
            rw [he, Option.some.injEq] at x1
            rw [← x2, ← x1, hcp]
          subst this
          refine ⟨e'.payload, ?_, h3, holds_payload.2 h5, by simp only [Entry.payload]; omega,
            fun _ => h6⟩
          rw [List.getElem?_set_self (by simpa using hi1)]
        · refine ⟨x, ?_, x2, x3, by simp only [k4]; exact x4, by simp only [k4]; exact x5⟩
          rw [List.getElem?_set_ne (by omega), k6]
          exact x1
    by_cases hd : (m1.entries[i]'hi1).drop = m1.drop
    · rw [if_pos hd]
      have hcc := hcur (by rw [← f1, hd, k4])
      refine .inl ⟨m1, s, _, _, rfl, hh.direct hcc, ?_, ?_, hs, k4, k2, ?_⟩
      · simp only [view_some, Entry.toGroup, Entry.group, f3, f4, f5]
      · refine ⟨by rw [k3]; exact h.font, k1, by rw [k5]; exact h.nodup, ?_⟩
        intro c' i' hc'
        rw [k5] at hc'
        rw [k6, k4]
        exact h.values c' i' hc'
      · intro _; rw [k5, hc]; rfl
    · rw [if_neg hd]
      have ht : e.switchType < 256 := by
        obtain ⟨_, _, _, h1, _⟩ := hh.found
        exact findEntry_type h1
      -- the slow path
      have slow : ∀ (X : Res (MappingCache × SettingsCache × Option Font.Group)),
          X = (do
            match ← utf8WithCache m1.font (runeBits c) s with
            | (_, none) => .panic "broken code"
            | (s, some g) =>
              let es ← setAt m1.entries i ((m1.entries[i]'hi1).update m1.drop g)
              return ({ m1 with entries := es }, s, some g)) →
          (∃ m' s' g g', X = .ok (m', s', g) ∧ f.utf8 (runeBits c) settings = .ok g' ∧
            Lookup.view g = Lookup.view g' ∧ CacheInv f settings m' ∧ Coherent f settings s' ∧
            m'.drop = m.drop ∧ m'.entries.length = m.entries.length ∧
            (g.isSome → (m'.cached.get c).isSome)) ∨
          ((∀ x, X ≠ .ok x) ∧ ∀ g, f.utf8 (runeBits c) settings ≠ .ok g) := by
        intro X hX
        have hf : m1.font = f := by rw [k3]; exact h.font
        rw [show utf8WithCache m1.font = utf8WithCache f by rw [hf]] at hX
        cases hu : f.utf8 (runeBits c) settings with
        | ok r =>
          obtain ⟨s', hs', hco⟩ := (utf8WithCache_eq hs _ r).1 hu
          rw [hs', Res.ok_bind] at hX
          cases r with
          | none =>
            -- impossible: the code point has an entry
            obtain ⟨_, _, _, h1, _⟩ := hh.found
            simp only [Font.utf8, h1, Res.ok_bind] at hu
            split at hu
            · simp [Res.pure_eq] at hu
            · simp only [Res.bind_eq_ok, Res.pure_eq, Res.ok.injEq] at hu
              obtain ⟨_, _, _, _, h2⟩ := hu
              exact absurd h2 (by simp)
          | some g =>
            simp only at hX
            rw [setAt_lt hi1, Res.ok_bind, Res.pure_eq] at hX
            have hgr : ((m1.entries[i]'hi1).update m1.drop g).group = g := rfl
            obtain ⟨q1, q2⟩ := Holds.of (e := (m1.entries[i]'hi1).update m1.drop g) (by rw [hgr]; exact hu)
            refine .inl ⟨_, s', some g, some g, hX, rfl, rfl, ?_, hco, k4, ?_, ?_⟩
            · exact hset ((m1.entries[i]'hi1).update m1.drop g) rfl rfl (by rw [← hcp, ← f6]; rfl) rfl q1 q2
            · simp only [List.length_set]; exact k2
            · intro _; simp only [k5, hc]; rfl
        | err msg =>
          refine .inr ⟨?_, by simp⟩
          intro x hx
          rw [hX] at hx
          simp only [Res.bind_eq_ok] at hx
          obtain ⟨⟨s', r⟩, hr, _⟩ := hx
          have := (utf8WithCache_eq hs _ r).2 s' hr
          rw [hu] at this
          exact absurd this (by simp)
        | panic msg =>
          refine .inr ⟨?_, by simp⟩
          intro x hx
          rw [hX] at hx
          simp only [Res.bind_eq_ok] at hx
          obtain ⟨⟨s', r⟩, hr, _⟩ := hx
          have := (utf8WithCache_eq hs _ r).2 s' hr
          rw [hu] at this
          exact absurd this (by simp)
      -- the quick path
      have quick : Current f settings e → ∀ e' : Entry, e'.prev = (m1.entries[i]'hi1).prev →
          e'.next = (m1.entries[i]'hi1).next → e'.codePoint = c → e'.drop = m1.drop →
          e'.switchType = e.switchType → e'.caseBranch = e.caseBranch → e'.offset = e.offset →
          e'.direct = e.direct →
          CacheInv f settings { m1 with entries := m1.entries.set i e' } := by
        intro hcc e' h1 h2 h3 h4 h5 h6 h7 h8
        refine hset e' h1 h2 h3 h4 ?_ ?_
        · obtain ⟨hfd⟩ := hh
          refine ⟨?_⟩
          rw [h5, h6, h7, h8]
          exact hfd
        · rw [Current, h5, h6]
          exact hcc
      by_cases ht2 : e.switchType ≥ 254
      · have hg : s.getMappingCase (m1.entries[i]'hi1).switchType = .ok (0, true) := by
          rw [SettingsCache.getMappingCase, f2, if_pos ht2]
        have h0 : e.caseBranch = 0 := by
          obtain ⟨_, _, _, h1, h2, _, h4⟩ := hh.found
          rcases (show e.switchType = 254 ∨ e.switchType = 255 by omega) with h5 | h5
          · exact h4 h5
          · exact (h2 h5).2.1
        have hcc : Current f settings e := fun hlt => absurd hlt (by omega)
        rw [hg, Res.ok_bind]
        simp only [f3, h0, and_self, if_true]
        rw [setAt_lt hi1, Res.ok_bind]
        refine .inl ⟨_, s, _, _, rfl, hh.direct hcc, ?_, quick hcc _ rfl rfl (by simp [f6, hcp]) rfl (by simp [f2]) (by simp [f3, h0])
          (by simp [f4]) (by simp [f5]), hs, k4, by simpa using k2, ?_⟩
        · simp only [view_some, Entry.toGroup, Entry.group, f3, f4, f5]
        · intro _; simp only [k5, hc]; rfl
      · obtain ⟨st, hr, hst, hn, hca⟩ := hs.rep
        have hb : (UInt8.ofNat e.switchType).toNat = e.switchType := by simp; omega
        have hget := (hr.step (.getCase (UInt8.ofNat e.switchType))).1
        simp only [opStep, Spec.Settings.step, hb] at hget
        rw [if_neg ht2] at hget
        rw [f2]
        cases hg : s.getMappingCase e.switchType with
        | ok x =>
          obtain ⟨v, b⟩ := x
          rw [hg] at hget
          rw [Res.ok_bind]
          simp only
          by_cases hcond : (b = true ∧ v = (m1.entries[i]'hi1).caseBranch)
          · rw [if_pos hcond]
            obtain ⟨rfl, hv⟩ := hcond
            have hcc : Current f settings e := by
              intro _
              by_cases hpad : e.switchType < Settings.padded st.numSwitches
              · rw [if_pos hpad] at hget
                cases hsc : st.cases e.switchType with
                | none => rw [hsc] at hget; simp at hget
                | some w =>
                  rw [hsc] at hget
                  simp only [Settings.Obs.case.injEq, and_true] at hget
                  rw [hca _ _ hsc, ← hget, hv, f3]
              · rw [if_neg hpad] at hget
                simp at hget
            rw [setAt_lt hi1, Res.ok_bind]
            refine .inl ⟨_, s, _, _, rfl, hh.direct hcc, ?_, quick hcc _ rfl rfl (by simp [f6, hcp]) rfl (by simp [f2]) (by simp [f3])
              (by simp [f4]) (by simp [f5]), hs, k4, by simpa using k2, ?_⟩
            · simp only [view_some, Entry.toGroup, Entry.group, f3, f4, f5]
            · intro _; simp only [k5, hc]; rfl
          · rw [if_neg hcond]
            exact slow _ rfl
        | err msg =>
          rw [hg] at hget
          by_cases hpad : e.switchType < Settings.padded st.numSwitches
          · rw [if_pos hpad] at hget
            cases hsc : st.cases e.switchType <;> rw [hsc] at hget <;> simp at hget
          · refine .inr ⟨by simp, ?_⟩
            intro g hgu
            obtain ⟨_, _, _, h1, _⟩ := hh.found
            simp only [Font.utf8, h1, Res.ok_bind] at hgu
            rw [if_neg (by omega), if_pos (by omega)] at hgu
            simp only [Res.bind_eq_ok] at hgu
            obtain ⟨v, hv, _⟩ := hgu
            have := evaluateSwitch_bound hv hn
            simp only [Settings.padded] at hpad
            omega
        | panic msg =>
          rw [hg] at hget
          by_cases hpad : e.switchType < Settings.padded st.numSwitches
          · rw [if_pos hpad] at hget
            cases hsc : st.cases e.switchType <;> rw [hsc] at hget <;> simp at hget
          · refine .inr ⟨by simp, ?_⟩
            intro g hgu
            obtain ⟨_, _, _, h1, _⟩ := hh.found
            simp only [Font.utf8, h1, Res.ok_bind] at hgu
            rw [if_neg (by omega), if_pos (by omega)] at hgu
            simp only [Res.bind_eq_ok] at hgu
            obtain ⟨v, hv, _⟩ := hgu
            have := evaluateSwitch_bound hv hn
            simp only [Settings.padded] at hpad
            omega
  | none =>
    simp only
    rw [show utf8WithCache m.font = utf8WithCache f by rw [h.font]]
    cases hu : f.utf8 (runeBits c) settings with
    | ok r =>
      obtain ⟨s', hs', hco⟩ := (utf8WithCache_eq hs _ r).1 hu
      rw [hs', Res.ok_bind]
      cases r with
      | none => exact .inl ⟨m, s', none, none, rfl, rfl, rfl, h, hco, rfl, rfl, by simp⟩
      | some g =>
        have hl := h.links.lru
        simp only
        rw [idx_lt hl, Res.ok_bind, setAt_lt hl, Res.ok_bind]
        have hgr : ({ (m.entries[m.lru]'hl).update m.drop g with codePoint := c } : Entry).group = g := rfl
        obtain ⟨q1, q2⟩ := Holds.of (e := { (m.entries[m.lru]'hl).update m.drop g with codePoint := c })
          (by rw [hgr]; exact hu)
        generalize hE : ({ (m.entries[m.lru]'hl).update m.drop g with codePoint := c } : Entry) = E at q1 q2
        have e1 : E.prev = (m.entries[m.lru]'hl).prev := by rw [← hE]; rfl
        have e2 : E.next = (m.entries[m.lru]'hl).next := by rw [← hE]; rfl
        have e3 : E.codePoint = c := by rw [← hE]
        have e4 : E.drop = m.drop := by rw [← hE]; rfl
        have hlinks : LinkInv { m with
            entries := m.entries.set m.lru E
            cached := (m.cached.delete (m.entries[m.lru]'hl).codePoint).set c m.lru } := by
          refine ⟨?_, ?_, ?_, ?_⟩
          · simpa using h.links.size
          · simpa using h.links.lru
          · simpa using h.links.mru
          · simp only [List.length_set]
            intro x hx
            rcases List.mem_or_eq_of_mem_set hx with hx | rfl
            · exact h.links.links x hx
            · rw [e1, e2]
              exact h.links.links _ (List.getElem_mem hl)
        obtain ⟨m1, hm1, k1, k2, k3, k4, k5, k6⟩ := updateMRU_ok hlinks (i := m.lru) (by simpa using hl)
        rw [hm1, Res.ok_bind]
        refine .inl ⟨m1, s', some g, some g, rfl, rfl, rfl, ⟨?_, k1, ?_, ?_⟩, hco, k4,
          by simpa using k2, ?_⟩
        · rw [k3]; exact h.font
        · rw [k5]
          exact GoMap.nodup_set (GoMap.nodup_delete h.nodup _) _ _
        · intro c' i' hc'
          rw [k5] at hc'
          simp only at hc' k4
          rw [k6, k4]
          simp only [List.map_set]
          by_cases hcc : c' = c
          · subst hcc
            rw [GoMap.get_set_self, Option.some.injEq] at hc'
            subst hc'
            refine ⟨E.payload, ?_, e3, holds_payload.2 q1, by simp only [Entry.payload]; omega,
              fun _ => q2⟩
            rw [List.getElem?_set_self (by simpa using hl)]
          · rw [GoMap.get_set_ne _ _ hcc] at hc'
            have hne : c' ≠ (m.entries[m.lru]'hl).codePoint := by
              rintro rfl
              rw [GoMap.get_delete_self] at hc'
              exact absurd hc' (by simp)
            rw [GoMap.get_delete_ne _ hne] at hc'
            obtain ⟨x, x1, x2, x3, x4, x5⟩ := h.values c' i' hc'
            have hii : i' ≠ m.lru := by
              rintro rfl
              rw [List.getElem?_map, List.getElem?_eq_getElem hl] at x1
              simp only [Option.map_some, Option.some.injEq] at x1
              apply hne
              rw [← x2, ← x1]
              rfl
            refine ⟨x, ?_, x2, x3, x4, x5⟩
            rw [List.getElem?_set_ne (by omega)]
            exact x1
        · intro _
          rw [k5]
          simp only [GoMap.get_set_self]
          rfl
    | err msg =>
      refine .inr ⟨?_, by simp⟩
      intro x hx
      simp only [Res.bind_eq_ok] at hx
      obtain ⟨⟨s', r⟩, hr, _⟩ := hx
      have := (utf8WithCache_eq hs _ r).2 s' hr
      rw [hu] at this
      exact absurd this (by simp)
    | panic msg =>
      refine .inr ⟨?_, by simp⟩
      intro x hx
      simp only [Res.bind_eq_ok] at hx
      obtain ⟨⟨s', r⟩, hr, _⟩ := hx
      have := (utf8WithCache_eq hs _ r).2 s' hr
      rw [hu] at this
      exact absurd this (by simp)

theorem Coherent.new {f : Font} {n s k : Nat} (hn : f.numSettings = .ok n)
    (hs : f.numSwitchTypes = .ok s) (hk : f.numConditions = .ok k) :
    ∃ c, SettingsCache.new f = .ok c ∧ Coherent f (List.replicate n 0) c := by
  obtain ⟨c, h1, h2⟩ := Repr.new hn hs hk
  exact ⟨c, h1, ⟨_, h2, rfl, hs, by simp⟩⟩

theorem Coherent.change {f : Font} {settings : List Nat} {s : SettingsCache}
    (h : Coherent f settings s) (k : UInt8) (v : Nat) :
    (k.toNat < settings.length → ∃ s' b, s.set k.toNat v = .ok (s', b) ∧
      Coherent f (settings.set k.toNat v) s') ∧
    (¬ k.toNat < settings.length → ∀ x, s.set k.toNat v ≠ .ok x) := by
  obtain ⟨st, hr, hst, hn, hc⟩ := h.rep
  obtain ⟨h1, h2⟩ := hr.step (.set k v)
  simp only [opStep, Spec.Settings.step, hst] at h1 h2
  constructor
  · intro hk
    rw [if_pos hk] at h1 h2
    cases hs : s.set k.toNat v with
    | ok x =>
      obtain ⟨s', b⟩ := x
      rw [hs] at h2
      refine ⟨s', b, rfl, ⟨_, h2 (by simp), rfl, hn, by simp⟩⟩
    | err m => rw [hs] at h1; simp at h1
    | panic m => rw [hs] at h1; simp at h1
  · intro hk x hx
    rw [if_neg hk, hx] at h1
    simp at h1

theorem CacheInv.fresh {f : Font} (settings : List Nat) {n d : Nat} (hn : 0 < n) (h : n ≤ 65000) :
    CacheInv f settings { font := f, drop := d, entries := MappingCache.linked n } :=
  ⟨rfl, linked_inv _ _ hn h, by simp [GoMap.keys], by intro c i hc; simp [GoMap.get] at hc⟩

theorem CacheInv.drop {f : Font} {settings settings' : List Nat} {m : MappingCache}
    (h : CacheInv f settings m) (hd : m.drop + 1 < 4294967296) :
    CacheInv f settings' m.dropAll ∧ m.dropAll.drop = m.drop + 1 := by
  have e : m.dropAll.drop = m.drop + 1 := by
    simp only [MappingCache.dropAll, u32]; omega
  refine ⟨⟨h.font, ⟨h.links.size, h.links.lru, h.links.mru, h.links.links⟩, h.nodup, ?_⟩, e⟩
  intro c i hc
  obtain ⟨x, x1, x2, x3, x4, x5⟩ := h.values c i hc
  refine ⟨x, x1, x2, x3, by rw [e]; omega, fun hh => ?_⟩
  rw [e] at hh; omega

open Spec.Lookup in
theorem run_eq (ops : List Lookup.Op) : ∀ {f : Font} {settings : List Nat} {m : MappingCache}
    {s : SettingsCache}, CacheInv f settings m → Coherent f settings s →
    m.drop + drops ops < 4294967296 → codeRun m s ops = Lookup.run f settings ops := by
  induction ops with
  | nil => intros; rfl
  | cons op ops ih =>
    intro f settings m s hm hs hd
    rw [codeRun, Lookup.run]
    cases op with
    | lookup c =>
      simp only [drops] at hd
      simp only [codeStep, Lookup.step]
      rcases get_eq hm hs c with ⟨m', s', g, g', h1, h2, h3, h4, h5, h6, _⟩ | ⟨h1, h2⟩
      · rw [h1, h2]
        simp only
        rw [h3]
        have := ih h4 h5 (by omega)
        cases g' <;> simp only [view, this]
      · cases ha : m.get c s with
        | ok x => exact absurd ha (h1 x)
        | err m => cases hb : f.utf8 (runeBits c) settings with
          | ok x => exact absurd hb (h2 x)
          | err m => rfl
          | panic m => rfl
        | panic m => cases hb : f.utf8 (runeBits c) settings with
          | ok x => exact absurd hb (h2 x)
          | err m => rfl
          | panic m => rfl
    | direct c =>
      simp only [drops] at hd
      simp only [codeStep, Lookup.step]
      rw [show utf8WithCache m.font = utf8WithCache f by rw [hm.font]]
      cases hb : f.utf8 (runeBits c) settings with
      | ok r =>
        obtain ⟨s', h1, h2⟩ := (utf8WithCache_eq hs _ r).1 hb
        rw [h1]
        have := ih hm h2 (by omega)
        cases r <;> simp only [view, this]
      | err msg =>
        cases ha : utf8WithCache f (runeBits c) s with
        | ok x =>
          have := (utf8WithCache_eq hs _ x.2).2 x.1 ha
          rw [hb] at this; simp at this
        | err m => rfl
        | panic m => rfl
      | panic msg =>
        cases ha : utf8WithCache f (runeBits c) s with
        | ok x =>
          have := (utf8WithCache_eq hs _ x.2).2 x.1 ha
          rw [hb] at this; simp at this
        | err m => rfl
        | panic m => rfl
    | change k v =>
      simp only [drops] at hd
      simp only [codeStep, Lookup.step]
      obtain ⟨h1, h2⟩ := hs.change k v
      by_cases hk : k.toNat < settings.length
      · obtain ⟨s', b, h3, h4⟩ := h1 hk
        rw [h3, if_pos hk]
        obtain ⟨q1, q2⟩ := hm.drop (settings' := settings.set k.toNat v) (by omega)
        have := ih q1 h4 (by omega)
        simp only [this]
      · rw [if_neg hk]
        cases ha : s.set k.toNat v with
        | ok x => exact absurd ha (h2 hk x)
        | err m => rfl
        | panic m => rfl
    | drop =>
      simp only [drops] at hd
      simp only [codeStep, Lookup.step]
      obtain ⟨q1, q2⟩ := hm.drop (settings' := settings) (by omega)
      simp only [ih q1 hs (by omega)]
    | reset =>
      simp only [drops] at hd
      simp only [codeStep, Lookup.step, MappingCache.reset]
      have hz : 0 < m.entries.length := by have := hm.links.lru; omega
      have := ih (CacheInv.fresh (f := m.font) (d := m.drop) settings hz hm.links.size)
        (by rw [hm.font]; exact hs) (by simp only; omega)
      rw [hm.font] at this
      rw [hm.font]
      simp only [this]
    | newFont f' =>
      simp only [drops] at hd
      simp only [codeStep, Lookup.step, MappingCache.reset]
      cases h1 : f'.numSettings with
      | ok n => cases h2 : f'.numSwitchTypes with
        | ok k => cases h3 : f'.numConditions with
          | ok j =>
            obtain ⟨c, q1, q2⟩ := Coherent.new h1 h2 h3
            rw [q1]
            have hz : 0 < m.entries.length := by have := hm.links.lru; omega
            have := ih (CacheInv.fresh (f := f') (d := m.drop) _ hz hm.links.size) q2
              (by simp only; omega)
            simp only [this]
          | err msg => rw [SettingsCache.new, h1, Res.ok_bind, h2, Res.ok_bind, h3]; rfl
          | panic msg => rw [SettingsCache.new, h1, Res.ok_bind, h2, Res.ok_bind, h3]; rfl
        | err msg => rw [SettingsCache.new, h1, Res.ok_bind, h2]; rfl
        | panic msg => rw [SettingsCache.new, h1, Res.ok_bind, h2]; rfl
      | err msg => rw [SettingsCache.new, h1]; rfl
      | panic msg => rw [SettingsCache.new, h1]; rfl

end CacheModel
