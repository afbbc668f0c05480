import Verif.Lemmas.MappingCacheRun
import Mathlib.Data.List.Perm.Subperm

/-! # Which code points the mapping cache holds -/

namespace CacheModel
open Go Helpers FontModel Spec
open BuilderModel (GoMap ite_panic)

/-- The map points to the entries of its keys. -/
structure KeyInv (m : MappingCache) : Prop where
  links : LinkInv m
  nodup : m.cached.keys.Nodup
  values : ∀ c i, m.cached.get c = some i →
    ∃ e, (m.entries.map Entry.payload)[i]? = some e ∧ e.codePoint = c

theorem KeyInv.fresh {f : Font} {n d : Nat} (hn : 0 < n) (h : n ≤ 65000) :
    KeyInv { font := f, drop := d, entries := MappingCache.linked n } :=
  ⟨linked_inv _ _ hn h, by simp [GoMap.keys], by intro c i hc; simp [GoMap.get] at hc⟩

theorem KeyInv.capacity {m : MappingCache} (h : KeyInv m) : m.cached.length ≤ m.entries.length := by
  have hv : ∀ p ∈ m.cached, ∃ e, (m.entries.map Entry.payload)[p.2]? = some e ∧ e.codePoint = p.1 :=
    fun p hp => h.values p.1 p.2 (GoMap.get_of_mem h.nodup hp)
  have hnd : (m.cached.map Prod.snd).Nodup := by
    have hk := h.nodup
    revert hk hv
    generalize m.cached = l
    intro hv hk
    induction l with
    | nil => simp
    | cons p l ih =>
      simp only [GoMap.keys, List.map_cons, List.nodup_cons] at hk
      rw [List.map_cons, List.nodup_cons]
      refine ⟨?_, ih (fun q hq => hv q (List.mem_cons_of_mem _ hq)) hk.2⟩
      intro hmem
      obtain ⟨q, hq, hqe⟩ := List.mem_map.1 hmem
      obtain ⟨e1, a1, a2⟩ := hv p (by simp)
      obtain ⟨e2, b1, b2⟩ := hv q (List.mem_cons_of_mem _ hq)
      rw [hqe, a1, Option.some.injEq] at b1
      apply hk.1
      rw [← a2, b1, b2]
      exact List.mem_map.2 ⟨q, hq, rfl⟩
  have hsub : m.cached.map Prod.snd ⊆ List.range m.entries.length := by
    intro i hi
    obtain ⟨p, hp, rfl⟩ := List.mem_map.1 hi
    obtain ⟨e, h1, _⟩ := hv p hp
    have := (List.getElem?_eq_some_iff.1 h1).1
    simpa using this
  have := (hnd.subperm hsub).length_le
  simpa using this

/-- The keys after a lookup. -/
theorem get_keys {m m' : MappingCache} {s s' : SettingsCache} {c : Int} {g : Option Font.Group}
    (h : KeyInv m) (hg : m.get c s = .ok (m', s', g)) :
    KeyInv m' ∧ m'.entries.length = m.entries.length ∧
    (m.cached.get c ≠ none → m'.cached = m.cached) ∧
    (m.cached.get c = none → g = none → m'.cached = m.cached) ∧
    (m.cached.get c = none → g ≠ none → ∃ x, m'.cached = (m.cached.delete x).set c m.lru) := by
  rw [MappingCache.get] at hg
  cases hc : m.cached.get c with
  | some i =>
    rw [hc] at hg
    simp only at hg
    obtain ⟨e, he, hcp⟩ := h.values c i hc
    have hi : i < m.entries.length := by
      have := (List.getElem?_eq_some_iff.1 he).1
      simpa using this
    obtain ⟨m1, hm1, k1, k2, k3, k4, k5, k6⟩ := updateMRU_ok h.links hi
    have hi1 : i < m1.entries.length := by omega
    rw [idx_lt hi, Res.ok_bind, hm1, Res.ok_bind, idx_lt hi1, Res.ok_bind] at hg
    have hp1 : (m1.entries[i]'hi1).codePoint = c := by
      rw [← k6, List.getElem?_map, List.getElem?_eq_getElem hi1] at he
      simp only [Option.map_some, Option.some.injEq] at he
      rw [← hcp, ← he]
      rfl
    -- any assignment that keeps the links and the code point
    have key : ∀ e' : Entry, e'.prev = (m1.entries[i]'hi1).prev → e'.next = (m1.entries[i]'hi1).next →
        e'.codePoint = (m1.entries[i]'hi1).codePoint →
        KeyInv { m1 with entries := m1.entries.set i e' } := by
      intro e' h1 h2 h3
      refine ⟨⟨by simpa using k1.size, by simpa using k1.lru, by simpa using k1.mru, ?_⟩,
        by simp only; rw [k5]; exact h.nodup, ?_⟩
      · simp only [List.length_set]
        intro x hx
        rcases List.mem_or_eq_of_mem_set hx with hx | rfl
        · exact k1.links x hx
        · rw [h1, h2]
          exact k1.links _ (List.getElem_mem hi1)
      · intro c' i' hc'
        simp only [k5] at hc'
        obtain ⟨x, x1, x2⟩ := h.values c' i' hc'
        simp only [List.map_set]
        by_cases hii : i' = i
        · subst hii
          have hcc : c' = c := by
            rw [he, Option.some.injEq] at x1
            rw [← x2, ← x1, hcp]
          refine ⟨e'.payload, ?_, ?_⟩
          · rw [List.getElem?_set_self (by simpa using hi1)]
          · rw [hcc, ← hp1, ← h3]; rfl
        · refine ⟨x, ?_, x2⟩
          rw [List.getElem?_set_ne (by omega), k6]
          exact x1
    have fin : KeyInv m' ∧ m'.entries.length = m.entries.length ∧ m'.cached = m.cached := by
      split at hg
      · simp only [Res.pure_eq, Res.ok.injEq, Prod.mk.injEq] at hg
        obtain ⟨rfl, _, _⟩ := hg
        refine ⟨⟨k1, by rw [k5]; exact h.nodup, ?_⟩, k2, k5⟩
        rw [k5, k6]
        exact h.values
      · simp only [Res.bind_eq_ok] at hg
        obtain ⟨⟨v, b⟩, _, hg⟩ := hg
        simp only at hg
        split at hg
        · rw [setAt_lt hi1, Res.ok_bind] at hg
          simp only [Res.pure_eq, Res.ok.injEq, Prod.mk.injEq] at hg
          obtain ⟨rfl, _, _⟩ := hg
          exact ⟨key _ rfl rfl rfl, by simpa using k2, k5⟩
        · simp only [Res.bind_eq_ok] at hg
          obtain ⟨⟨s2, g2⟩, _, hg⟩ := hg
          cases g2 with
          | none => simp at hg
          | some g2 =>
            simp only at hg
            rw [setAt_lt hi1, Res.ok_bind] at hg
            simp only [Res.pure_eq, Res.ok.injEq, Prod.mk.injEq] at hg
            obtain ⟨rfl, _, _⟩ := hg
            exact ⟨key ((m1.entries[i]'hi1).update m1.drop g2) rfl rfl rfl, by simpa using k2, k5⟩
    obtain ⟨f1, f2, f3⟩ := fin
    exact ⟨f1, f2, fun _ => f3, fun hn => by simp at hn, fun hn => by simp at hn⟩
  | none =>
    rw [hc] at hg
    simp only [Res.bind_eq_ok] at hg
    obtain ⟨⟨s2, g2⟩, _, hg⟩ := hg
    cases g2 with
    | none =>
      simp only [Res.pure_eq, Res.ok.injEq, Prod.mk.injEq] at hg
      obtain ⟨rfl, _, rfl⟩ := hg
      exact ⟨h, rfl, fun hn => absurd rfl hn, fun _ _ => rfl, fun _ hn => absurd rfl hn⟩
    | some g2 =>
      have hl := h.links.lru
      simp only at hg
      rw [idx_lt hl, Res.ok_bind, setAt_lt hl, Res.ok_bind] at hg
      generalize hE : ({ (m.entries[m.lru]'hl).update m.drop g2 with codePoint := c } : Entry) = E at hg
      have e1 : E.prev = (m.entries[m.lru]'hl).prev := by rw [← hE]; rfl
      have e2 : E.next = (m.entries[m.lru]'hl).next := by rw [← hE]; rfl
      have e3 : E.codePoint = c := by rw [← hE]
      have hlinks : LinkInv { m with
          entries := m.entries.set m.lru E
          cached := (m.cached.delete (m.entries[m.lru]'hl).codePoint).set c m.lru } := by
        refine ⟨?_, ?_, ?_, ?_⟩
        · simpa using h.links.size
        · simpa using h.links.lru
        · simpa using h.links.mru
        · simp only [List.length_set]
          intro x hx
          rcases List.mem_or_eq_of_mem_set hx with hx | rfl
          · exact h.links.links x hx
          · rw [e1, e2]
            exact h.links.links _ (List.getElem_mem hl)
      obtain ⟨m1, hm1, k1, k2, k3, k4, k5, k6⟩ := updateMRU_ok hlinks (i := m.lru) (by simpa using hl)
      rw [hm1, Res.ok_bind] at hg
      simp only [Res.pure_eq, Res.ok.injEq, Prod.mk.injEq] at hg
      obtain ⟨rfl, _, rfl⟩ := hg
      refine ⟨⟨k1, ?_, ?_⟩, by simpa using k2, fun hn => absurd rfl hn, fun _ hn => by simp at hn,
        fun _ _ => ⟨_, k5⟩⟩
      · rw [k5]
        exact GoMap.nodup_set (GoMap.nodup_delete h.nodup _) _ _
      · intro c' i' hc'
        rw [k5] at hc'
        simp only at hc'
        rw [k6]
        simp only [List.map_set]
        by_cases hcc : c' = c
        · subst hcc
          rw [GoMap.get_set_self, Option.some.injEq] at hc'
          subst hc'
          exact ⟨E.payload, List.getElem?_set_self (by simpa using hl), e3⟩
        · rw [GoMap.get_set_ne _ _ hcc] at hc'
          have hne : c' ≠ (m.entries[m.lru]'hl).codePoint := by
            rintro rfl
            rw [GoMap.get_delete_self] at hc'
            exact absurd hc' (by simp)
          rw [GoMap.get_delete_ne _ hne] at hc'
          obtain ⟨x, x1, x2⟩ := h.values c' i' hc'
          have hii : i' ≠ m.lru := by
            rintro rfl
            rw [List.getElem?_map, List.getElem?_eq_getElem hl] at x1
            simp only [Option.map_some, Option.some.injEq] at x1
            apply hne
            rw [← x2, ← x1]
            rfl
          refine ⟨x, ?_, x2⟩
          rw [List.getElem?_set_ne (by omega)]
          exact x1

theorem codeState_keys (ops : List Lookup.Op) : ∀ {m : MappingCache} {s : SettingsCache}, KeyInv m →
    KeyInv (Lookup.codeState m s ops).1 ∧
    (Lookup.codeState m s ops).1.entries.length = m.entries.length := by
  induction ops with
  | nil => intro m s h; exact ⟨h, rfl⟩
  | cons op ops ih =>
    intro m s h
    rw [Lookup.codeState]
    have step : KeyInv (Lookup.codeStep m s op).2.1 ∧
        (Lookup.codeStep m s op).2.1.entries.length = m.entries.length := by
      have hz : 0 < m.entries.length := by have := h.links.lru; omega
      have hlen : (MappingCache.linked m.entries.length).length = m.entries.length := by
        simp [MappingCache.linked]
      cases op with
      | lookup c =>
        simp only [Lookup.codeStep]
        cases hg : m.get c s with
        | ok x =>
          obtain ⟨m', s', g⟩ := x
          have := get_keys h hg
          exact ⟨this.1, this.2.1⟩
        | err _ => exact ⟨h, rfl⟩
        | panic _ => exact ⟨h, rfl⟩
      | direct c =>
        simp only [Lookup.codeStep]
        split <;> exact ⟨h, rfl⟩
      | change k v =>
        simp only [Lookup.codeStep]
        split
        · exact ⟨⟨⟨h.links.size, h.links.lru, h.links.mru, h.links.links⟩, h.nodup, h.values⟩, rfl⟩
        · exact ⟨h, rfl⟩
      | drop =>
        exact ⟨⟨⟨h.links.size, h.links.lru, h.links.mru, h.links.links⟩, h.nodup, h.values⟩, rfl⟩
      | reset => exact ⟨KeyInv.fresh hz h.links.size, hlen⟩
      | newFont f =>
        simp only [Lookup.codeStep]
        split
        · exact ⟨KeyInv.fresh hz h.links.size, hlen⟩
        · exact ⟨h, rfl⟩
    obtain ⟨h1, h2⟩ := ih (s := (Lookup.codeStep m s op).2.2) step.1
    exact ⟨h1, h2.trans step.2⟩

/-! ## Filling a fresh cache -/

/-- A fresh cache of `n` entries after lookups of `cs`, fewer than `n`. -/
structure Fill (n : Nat) (cs : List Int) (m : MappingCache) : Prop where
  len : m.entries.length = n
  lru : m.lru = cs.length
  mru : m.mru = noEntry ∨ m.mru < cs.length
  next : ∀ j, cs.length ≤ j → (h : j < m.entries.length) →
    m.entries[j].next = if j = n - 1 then noEntry else j + 1
  code : ∀ j, cs.length ≤ j → (h : j < m.entries.length) → m.entries[j].codePoint = 0
  prev : (h : cs.length < m.entries.length) → m.entries[cs.length].prev = noEntry
  keys : ∀ c, m.cached.get c ≠ none ↔ c ∈ cs

theorem Fill.fresh {f : Font} {n : Nat} (hn : 0 < n) :
    Fill n [] { font := f, entries := MappingCache.linked n } := by
  refine ⟨by simp [MappingCache.linked], rfl, .inl rfl, ?_, ?_, ?_, ?_⟩
  · intro j _ h
    simp [MappingCache.linked]
  · intro j _ h
    simp [MappingCache.linked]
  · intro h
    simp [MappingCache.linked]
  · intro c
    simp [GoMap.get]

/-- What a miss does. -/
theorem get_miss {m : MappingCache} {s s' : SettingsCache} {c : Int} {g : Font.Group}
    (hc : m.cached.get c = none) (hl : m.lru < m.entries.length)
    (hu : utf8WithCache m.font (runeBits c) s = .ok (s', some g)) :
    m.get c s = (({ m with
        entries := m.entries.set m.lru { (m.entries[m.lru].update m.drop g) with codePoint := c }
        cached := (m.cached.delete m.entries[m.lru].codePoint).set c m.lru } : MappingCache).updateMRU m.lru
      >>= fun m' => .ok (m', s', some g)) := by
  have hrb : (c % 4294967296).toNat = runeBits c := rfl
  rw [MappingCache.get, hc, hrb]
  simp only
  rw [hu, Res.ok_bind]
  simp only
  rw [idx_lt hl, Res.ok_bind, setAt_lt hl, Res.ok_bind]
  rfl

/-- Filling one more entry, not the last. -/
theorem Fill.step {n : Nat} {cs : List Int} {m : MappingCache} {s s' : SettingsCache} {c : Int}
    {g : Font.Group} (h : Fill n cs m) (hn : n ≤ 65000) (hk : cs.length + 1 < n) (hc : c ∉ cs)
    (h0 : 0 ∉ cs) (hu : utf8WithCache m.font (runeBits c) s = .ok (s', some g)) :
    ∃ m', m.get c s = .ok (m', s', some g) ∧ Fill n (cs ++ [c]) m' ∧ m'.font = m.font := by
  have hlen := h.len
  have hlru := h.lru
  have hl : m.lru < m.entries.length := by omega
  have hnone : m.cached.get c = none := by
    have := mt (h.keys c).1 hc
    exact Decidable.not_not.1 this
  have hcode : m.entries[m.lru].codePoint = 0 := h.code _ (by omega) hl
  have hnext : m.entries[m.lru].next = m.lru + 1 := by
    rw [h.next _ (by omega) hl, if_neg (by omega)]
  have hprev : m.entries[m.lru].prev = noEntry := by
    have := h.prev (by omega)
    simp only [← hlru] at this
    exact this
  rw [get_miss hnone hl hu]
  generalize hE : ({ (m.entries[m.lru].update m.drop g) with codePoint := c } : Entry) = E
  have e1 : E.prev = noEntry := by rw [← hE]; exact hprev
  have e2 : E.next = m.lru + 1 := by rw [← hE]; exact hnext
  have hne : ¬ m.lru + 1 = noEntry := by rw [noEntry]; omega
  have hl1 : m.lru < (m.entries.set m.lru E).length := by simpa using hl
  have hg1 : (m.entries.set m.lru E)[m.lru]'hl1 = E := by simp
  rw [MappingCache.updateMRU]
  simp only
  rw [idx_lt hl1, Res.ok_bind, hg1, e2, if_neg hne, e1, if_pos rfl]
  rw [modAt, idx_lt (by simp; omega), Res.ok_bind, setAt_lt (by simp; omega), Res.ok_bind]
  rw [modAt, idx_lt (by simp; omega), Res.ok_bind, setAt_lt (by simp; omega), Res.ok_bind]
  have hkeys : ∀ c', ((m.cached.delete m.entries[m.lru].codePoint).set c m.lru).get c' ≠ none ↔
      c' ∈ cs ++ [c] := by
    intro c'
    rw [hcode]
    by_cases hcc : c' = c
    · subst hcc
      rw [GoMap.get_set_self]; simp
    · rw [GoMap.get_set_ne _ _ hcc]
      by_cases hz : c' = 0
      · subst hz
        rw [GoMap.get_delete_self]
        simp [h0, hcc]
      · rw [GoMap.get_delete_ne _ hz, h.keys c']
        simp [hcc]
  have hlen' : (cs ++ [c]).length = m.lru + 1 := by simp [hlru]
  -- the entries after the current one, and the previous link of the next one
  have fin : ∀ es : List Entry, es.length = n →
      (∀ j, m.lru < j → (h1 : j < es.length) → (h2 : j < m.entries.length) →
        es[j].next = m.entries[j].next ∧ es[j].codePoint = m.entries[j].codePoint) →
      (∀ h1 : m.lru + 1 < es.length, es[m.lru + 1].prev = noEntry) →
      Fill n (cs ++ [c]) { m with
        lru := m.lru + 1, mru := m.lru, entries := es
        cached := (m.cached.delete m.entries[m.lru].codePoint).set c m.lru } := by
    intro es q1 q2 q3
    refine ⟨q1, hlen'.symm, .inr (Nat.lt_of_lt_of_eq (Nat.lt_succ_self _) hlen'.symm), ?_, ?_, ?_, hkeys⟩
    · intro j hj hjl
      rw [hlen'] at hj
      have hj2 : j < m.entries.length := by have : j < es.length := hjl; omega
      rw [← h.next j (by omega) hj2]
      exact (q2 j (by omega) hjl hj2).1
    · intro j hj hjl
      rw [hlen'] at hj
      have hj2 : j < m.entries.length := by have : j < es.length := hjl; omega
      rw [← h.code j (by omega) hj2]
      exact (q2 j (by omega) hjl hj2).2
    · intro hjl
      simp only [hlen']
      exact q3 (by have : (cs ++ [c]).length < es.length := hjl; omega)
  generalize hes2 : ((m.entries.set m.lru E).set (m.lru + 1) _).set m.lru _ = es2
  have l2 : es2.length = n := by rw [← hes2]; simpa using hlen
  have f2 : ∀ j, m.lru < j → (h1 : j < es2.length) → (h2 : j < m.entries.length) →
        es2[j].next = m.entries[j].next ∧ es2[j].codePoint = m.entries[j].codePoint := by
    intro j hj h1 h2
    subst hes2
    rw [List.getElem_set_ne (by omega), List.getElem_set]
    split
    · rename_i he; subst he
      simp only [List.getElem_set_ne (show m.lru ≠ m.lru + 1 by omega), and_self]
    · rw [List.getElem_set_ne (by omega)]; exact ⟨rfl, rfl⟩
  have p2 : ∀ h1 : m.lru + 1 < es2.length, es2[m.lru + 1].prev = noEntry := by
    intro h1
    subst hes2
    rw [List.getElem_set_ne (by omega), List.getElem_set_self]
  clear hes2
  by_cases hm : m.mru ≠ noEntry
  · have hm' : m.mru < m.lru := by have := h.mru.resolve_left hm; omega
    rw [if_pos hm, modAt, idx_lt (by omega), Res.ok_bind, setAt_lt (by omega), Res.ok_bind]
    refine ⟨_, rfl, fin _ (by simpa using l2) ?_ ?_, rfl⟩
    · intro j hj h1 h2
      rw [List.getElem_set_ne (by omega)]
      exact f2 j hj _ h2
    · intro h1
      rw [List.getElem_set_ne (by omega)]
      exact p2 _
  · rw [if_neg hm, Res.ok_bind]
    exact ⟨_, rfl, fin _ l2 f2 p2, rfl⟩

/-- With all but one entry filled, misses go to the last entry. -/
structure Stuck (n : Nat) (cs : List Int) (last : Int) (m : MappingCache) : Prop where
  len : m.entries.length = n
  lru : m.lru = n - 1
  next : (h : n - 1 < m.entries.length) → m.entries[n - 1].next = noEntry
  code : (h : n - 1 < m.entries.length) → m.entries[n - 1].codePoint = last
  keys : ∀ c, m.cached.get c ≠ none ↔ c ∈ cs ∨ (c = last ∧ last ≠ 0)

theorem Fill.stuck {n : Nat} {cs : List Int} {m : MappingCache} (h : Fill n cs m)
    (hk : cs.length + 1 = n) : Stuck n cs 0 m := by
  refine ⟨h.len, by rw [h.lru]; omega, ?_, ?_, ?_⟩
  · intro hl
    rw [h.next _ (by omega) hl, if_pos rfl]
  · intro hl
    rw [h.code _ (by omega) hl]
  · intro c
    rw [h.keys c]
    simp

theorem Stuck.step {n : Nat} {cs : List Int} {last : Int} {m : MappingCache} {s s' : SettingsCache}
    {c : Int} {g : Font.Group} (h : Stuck n cs last m) (hn : 0 < n) (hc : c ∉ cs) (hcl : c ≠ last)
    (hc0 : c ≠ 0) (h0 : last ∉ cs) (hu : utf8WithCache m.font (runeBits c) s = .ok (s', some g)) :
    ∃ m', m.get c s = .ok (m', s', some g) ∧ Stuck n cs c m' ∧ m'.font = m.font := by
  have hlen := h.len
  have hlru := h.lru
  have hl : m.lru < m.entries.length := by omega
  have hnone : m.cached.get c = none := by
    have := mt (h.keys c).1 (by rintro (hh | hh); exact hc hh; exact hcl hh.1)
    exact Decidable.not_not.1 this
  have hcode : m.entries[m.lru].codePoint = last := by
    have := h.code (by omega)
    simp only [← hlru] at this
    exact this
  have hnext : m.entries[m.lru].next = noEntry := by
    have := h.next (by omega)
    simp only [← hlru] at this
    exact this
  rw [get_miss hnone hl hu]
  generalize hE : ({ (m.entries[m.lru].update m.drop g) with codePoint := c } : Entry) = E
  have e2 : E.next = noEntry := by rw [← hE]; exact hnext
  have e3 : E.codePoint = c := by rw [← hE]
  have hl1 : m.lru < (m.entries.set m.lru E).length := by simpa using hl
  have hg1 : (m.entries.set m.lru E)[m.lru]'hl1 = E := by simp
  rw [MappingCache.updateMRU]
  simp only
  rw [idx_lt hl1, Res.ok_bind, hg1, e2, if_pos rfl]
  refine ⟨_, rfl, ⟨by simpa using hlen, hlru, ?_, ?_, ?_⟩, rfl⟩
  · intro hh
    simp only [← hlru, hg1, e2]
  · intro hh
    simp only [← hlru, hg1, e3]
  · intro c'
    simp only [hcode]
    by_cases hcc : c' = c
    · subst hcc
      rw [GoMap.get_set_self]; simp [hc0]
    · rw [GoMap.get_set_ne _ _ hcc]
      by_cases hz : c' = last
      · subst hz
        rw [GoMap.get_delete_self]
        simp [h0, hcc]
      · rw [GoMap.get_delete_ne _ hz, h.keys c']
        simp [hcc, hz]

theorem lookups_append (xs ys : List Int) : ∀ (m : MappingCache) (s : SettingsCache),
    Lookup.lookups m s (xs ++ ys) = (Lookup.lookups m s xs >>= fun p => Lookup.lookups p.1 p.2 ys) := by
  induction xs with
  | nil => intro m s; simp [Lookup.lookups]
  | cons x xs ih =>
    intro m s
    simp only [List.cons_append, Lookup.lookups]
    cases m.get x s with
    | ok r => obtain ⟨m', s', g⟩ := r; simp only [Res.ok_bind]; exact ih m' s'
    | err _ => rfl
    | panic _ => rfl

/-- Looking up different code points in a fresh cache with room for one more. -/
theorem fill_run {f : Font} {settings : List Nat} {n : Nat} (hn : n ≤ 65000) (cs : List Int) :
    ∀ (done : List Int) {m : MappingCache} {s : SettingsCache}, m.font = f → Fill n done m →
    Coherent f settings s → (done ++ cs).Nodup → 0 ∉ done ++ cs → (done ++ cs).length < n →
    (∀ c ∈ cs, ∃ g, f.utf8 (runeBits c) settings = .ok (some g)) →
    ∃ m' s', Lookup.lookups m s cs = .ok (m', s') ∧ m'.font = f ∧ Fill n (done ++ cs) m' ∧
      Coherent f settings s' := by
  induction cs with
  | nil =>
    intro done m s hf h hs _ _ _ _
    exact ⟨m, s, rfl, hf, by simpa using h, hs⟩
  | cons c cs ih =>
    intro done m s hf h hs hnd h0 hlen hmap
    obtain ⟨g, hg⟩ := hmap c (by simp)
    obtain ⟨s1, hu, hs1⟩ := (utf8WithCache_eq hs _ _).1 hg
    simp only [List.length_append, List.length_cons] at hlen
    have hc : c ∉ done := by
      rw [List.nodup_append] at hnd
      intro hh
      exact hnd.2.2 c hh c (by simp) rfl
    obtain ⟨m1, h1, h2, h3⟩ := h.step (c := c) (s := s) hn (by omega) hc
      (fun hh => h0 (List.mem_append_left _ hh)) (by rw [hf]; exact hu)
    have e : done ++ c :: cs = (done ++ [c]) ++ cs := by simp
    rw [e] at hnd h0 ⊢
    obtain ⟨m2, s2, q1, q2, q3, q4⟩ := ih (done ++ [c]) (by rw [h3]; exact hf) h2 hs1 hnd h0
      (by simp; omega) (fun c' hc' => hmap c' (by simp [hc']))
    refine ⟨m2, s2, ?_, q2, q3, q4⟩
    rw [Lookup.lookups, h1, Res.ok_bind]
    exact q1

end CacheModel
