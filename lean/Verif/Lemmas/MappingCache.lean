import Verif.Lemmas.SettingsCache
import Verif.Lemmas.GoMap
import Verif.Lemmas.BuildParts

/-! # The mapping cache: links and values -/

namespace CacheModel
open Go Helpers FontModel Spec
open BuilderModel (GoMap ite_panic)

/-! ## Links -/

def LinkOk (n x : Nat) : Prop := x = noEntry ∨ x < n

def Links (n : Nat) (es : List Entry) : Prop := ∀ e ∈ es, LinkOk n e.prev ∧ LinkOk n e.next

/-- An entry without its links. -/
def Entry.payload (e : Entry) : Entry := { e with prev := 0, next := 0 }

theorem modAt_ok {n : Nat} {es : List Entry} {i : Nat} {g : Entry → Entry} (hi : i < es.length)
    (hl : Links n es) (hp : ∀ e, (g e).payload = e.payload)
    (hg : ∀ e, LinkOk n e.prev ∧ LinkOk n e.next → LinkOk n (g e).prev ∧ LinkOk n (g e).next) :
    ∃ es', modAt es i g = .ok es' ∧ es' = es.set i (g es[i]) ∧ es'.length = es.length ∧
      es'.map Entry.payload = es.map Entry.payload ∧ Links n es' := by
  refine ⟨es.set i (g es[i]), ?_, rfl, by simp, ?_, ?_⟩
  · rw [modAt, idx_lt hi, Res.ok_bind, setAt_lt hi]
  · rw [List.map_set, hp]
    apply List.ext_getElem (by simp)
    intro j h1 h2
    rw [List.getElem_set]
    split
    · rename_i h; subst h; simp
    · rfl
  · intro e he
    rcases List.mem_or_eq_of_mem_set he with he | rfl
    · exact hl e he
    · exact hg _ (hl _ (List.getElem_mem hi))

structure LinkInv (c : MappingCache) : Prop where
  size : c.entries.length ≤ 65000
  lru : c.lru < c.entries.length
  mru : LinkOk c.entries.length c.mru
  links : Links c.entries.length c.entries

theorem updateMRU_ok {c : MappingCache} (h : LinkInv c) {i : Nat} (hi : i < c.entries.length) :
    ∃ c', c.updateMRU i = .ok c' ∧ LinkInv c' ∧ c'.entries.length = c.entries.length ∧
      c'.font = c.font ∧ c'.drop = c.drop ∧ c'.cached = c.cached ∧
      c'.entries.map Entry.payload = c.entries.map Entry.payload := by
  obtain ⟨hp, hn⟩ := h.links _ (List.getElem_mem hi)
  have hsz := h.size
  rw [MappingCache.updateMRU, idx_lt hi, Res.ok_bind]
  by_cases h1 : c.entries[i].next = noEntry
  · rw [if_pos h1]
    exact ⟨c, rfl, h, rfl, rfl, rfl, rfl, rfl⟩
  · rw [if_neg h1]
    have hn' : c.entries[i].next < c.entries.length := hn.resolve_left h1
    have hself : LinkOk c.entries.length i := .inr hi
    by_cases h2 : c.entries[i].prev = noEntry
    · rw [if_pos h2]
      obtain ⟨e1, q1, -, l1, p1, k1⟩ := modAt_ok (i := c.entries[i].next)
        (g := fun e => { e with prev := noEntry }) hn' h.links (fun _ => rfl)
        (fun e he => ⟨.inl rfl, he.2⟩)
      obtain ⟨e2, q2, -, l2, p2, k2⟩ := modAt_ok (i := i)
        (g := fun e => { e with next := noEntry, prev := c.mru }) (by omega) k1 (fun _ => rfl)
        (fun e he => ⟨h.mru, .inl rfl⟩)
      rw [q1, Res.ok_bind, q2, Res.ok_bind]
      by_cases h3 : c.mru ≠ noEntry
      · have hm := h.mru.resolve_left h3
        obtain ⟨e3, q3, -, l3, p3, k3⟩ := modAt_ok (i := c.mru)
          (g := fun e => { e with next := i }) (by omega) k2 (fun _ => rfl)
          (fun e he => ⟨he.1, hself⟩)
        rw [if_pos h3, q3, Res.ok_bind]
        refine ⟨_, rfl, ⟨?_, ?_, ?_, ?_⟩, ?_, rfl, rfl, rfl, ?_⟩
        · simp only; omega
        · simp only; omega
        · simp only [l3, l2, l1]; exact hself
        · simp only [l3, l2, l1]; exact k3
        · simp only; omega
        · simp only [p3, p2, p1]
      · rw [if_neg h3, Res.ok_bind]
        refine ⟨_, rfl, ⟨?_, ?_, ?_, ?_⟩, ?_, rfl, rfl, rfl, ?_⟩
        · simp only; omega
        · simp only; omega
        · simp only [l2, l1]; exact hself
        · simp only [l2, l1]; exact k2
        · simp only; omega
        · simp only [p2, p1]
    · rw [if_neg h2]
      have hp' : c.entries[i].prev < c.entries.length := hp.resolve_left h2
      have first : ∃ e1, (if c.mru ≠ noEntry then modAt c.entries c.mru fun e => { e with next := i }
          else .ok c.entries) = .ok e1 ∧ e1.length = c.entries.length ∧
          e1.map Entry.payload = c.entries.map Entry.payload ∧ Links c.entries.length e1 := by
        by_cases h3 : c.mru ≠ noEntry
        · have hm := h.mru.resolve_left h3
          obtain ⟨e3, q3, -, l3, p3, k3⟩ := modAt_ok (i := c.mru)
            (g := fun e => { e with next := i }) hm h.links (fun _ => rfl)
            (fun e he => ⟨he.1, hself⟩)
          rw [if_pos h3, q3]
          exact ⟨_, rfl, l3, p3, k3⟩
        · rw [if_neg h3]
          exact ⟨_, rfl, rfl, rfl, h.links⟩
      obtain ⟨e1, q1, l1, p1, k1⟩ := first
      rw [q1, Res.ok_bind]
      obtain ⟨e2, q2, -, l2, p2, k2⟩ := modAt_ok (i := c.entries[i].prev)
        (g := fun e => { e with next := c.entries[i].next }) (by omega) k1 (fun _ => rfl)
        (fun e he => ⟨he.1, hn⟩)
      rw [q2, Res.ok_bind]
      obtain ⟨e3, q3, -, l3, p3, k3⟩ := modAt_ok (i := c.entries[i].next)
        (g := fun e => { e with prev := c.entries[i].prev }) (by omega) k2 (fun _ => rfl)
        (fun e he => ⟨hp, he.2⟩)
      rw [q3, Res.ok_bind]
      obtain ⟨e4, q4, -, l4, p4, k4⟩ := modAt_ok (i := i)
        (g := fun e => { e with next := noEntry, prev := c.mru }) (by omega) k3 (fun _ => rfl)
        (fun e he => ⟨h.mru, .inl rfl⟩)
      rw [q4, Res.ok_bind]
      refine ⟨_, rfl, ⟨?_, ?_, ?_, ?_⟩, ?_, rfl, rfl, rfl, ?_⟩
      · simp only; omega
      · have := h.lru; simp only; omega
      · simp only [l4, l3, l2, l1]; exact hself
      · simp only [l4, l3, l2, l1]; exact k4
      · simp only; omega
      · simp only [p4, p3, p2, p1]

theorem linked_inv (f : Font) (d : Nat) {n : Nat} (hn : 0 < n) (h : n ≤ 65000) :
    LinkInv { font := f, drop := d, entries := MappingCache.linked n } := by
  have hl : (MappingCache.linked n).length = n := by simp [MappingCache.linked]
  refine ⟨by simp only [hl]; exact h, by simp only [hl]; exact hn, .inl rfl, ?_⟩
  simp only [hl]
  intro e he
  simp only [MappingCache.linked, List.mem_map, List.mem_range] at he
  obtain ⟨i, hi, rfl⟩ := he
  simp only
  refine ⟨?_, ?_⟩
  · split
    · exact .inl rfl
    · exact .inr (by omega)
  · split
    · exact .inl rfl
    · exact .inr (by omega)

/-! ## The settings cache of a font -/

/-- Stored cases are those of the current settings. -/
structure Coherent (f : Font) (settings : List Nat) (c : SettingsCache) : Prop where
  rep : ∃ s : Settings.State, Repr c s ∧ s.settings = settings ∧
    f.numSwitchTypes = .ok s.numSwitches ∧
    ∀ t v, s.cases t = some v → f.evaluateSwitch t settings = .ok v

theorem evaluateSwitch_bound {f : Font} {t v n : Nat} {settings : List Nat}
    (h : f.evaluateSwitch t settings = .ok v) (hn : f.numSwitchTypes = .ok n) : t < n := by
  simp only [Font.evaluateSwitch, Res.bind_eq_ok, ite_panic] at h
  obtain ⟨n', h1, h2, _⟩ := h
  rw [hn, Res.ok.injEq] at h1
  omega

theorem cachedCase_eq {f : Font} {settings : List Nat} {c : SettingsCache}
    (h : Coherent f settings c) {t : Nat} (ht : t < 254) (v : Nat) :
    (f.evaluateSwitch t settings = .ok v → ∃ c', cachedCase f t c = .ok (c', v) ∧
      Coherent f settings c') ∧
    ∀ c', cachedCase f t c = .ok (c', v) → f.evaluateSwitch t settings = .ok v := by
  obtain ⟨s, hr, hs, hn, hc⟩ := h.rep
  have hb : (UInt8.ofNat t).toNat = t := by simp; omega
  have hcs : c.settings = settings := by rw [hr.settings, hs]
  have hget := (hr.step (.getCase (UInt8.ofNat t))).1
  simp only [opStep, Spec.Settings.step, hb] at hget
  rw [if_neg (by omega)] at hget
  rw [cachedCase, if_pos (by omega)]
  by_cases hpad : t < Settings.padded s.numSwitches
  · rw [if_pos hpad] at hget
    cases hst : s.cases t with
    | some w =>
      rw [hst] at hget
      have hev := hc t w hst
      cases hg : c.getMappingCase t with
      | ok x =>
        obtain ⟨x1, x2⟩ := x
        rw [hg] at hget
        simp only [Settings.Obs.case.injEq] at hget
        obtain ⟨rfl, rfl⟩ := hget
        simp only [Res.ok_bind, if_true, Res.pure_eq, Res.ok.injEq, Prod.mk.injEq]
        rw [hev, Res.ok.injEq]
        exact ⟨fun e => ⟨c, ⟨rfl, e⟩, h⟩, fun c' e => e.2⟩
      | err m => rw [hg] at hget; simp at hget
      | panic m => rw [hg] at hget; simp at hget
    | none =>
      rw [hst] at hget
      cases hg : c.getMappingCase t with
      | ok x =>
        obtain ⟨x1, x2⟩ := x
        rw [hg] at hget
        simp only [Settings.Obs.case.injEq] at hget
        obtain ⟨rfl, rfl⟩ := hget
        simp only [Res.ok_bind, Bool.false_eq_true, if_false, Res.bind_eq_ok, Res.pure_eq, Res.ok.injEq,
          Prod.mk.injEq, hcs]
        constructor
        · intro he
          have hlt := evaluateSwitch_bound he hn
          have hstore := hr.step (.storeCase (UInt8.ofNat t) v)
          simp only [opStep, Spec.Settings.step, hb, if_pos hlt] at hstore
          cases hk : c.cacheMappingCase t v with
          | ok c' =>
            rw [hk] at hstore
            refine ⟨c', ⟨v, he, c', hk, rfl, rfl⟩, ⟨_, hstore.2 (by simp), hs, hn, ?_⟩⟩
            intro t' v' hv
            simp only [Settings.put] at hv
            split at hv
            · rename_i e
              subst e
              simp only [Option.some.injEq] at hv
              subst hv
              exact he
            · exact hc _ _ hv
          | err m => rw [hk] at hstore; simp at hstore
          | panic m => rw [hk] at hstore; simp at hstore
        · rintro c' ⟨w, hw, c2, _, _, rfl⟩
          exact hw
      | err m => rw [hg] at hget; simp at hget
      | panic m => rw [hg] at hget; simp at hget
  · rw [if_neg hpad] at hget
    have hno : ∀ w, f.evaluateSwitch t settings ≠ .ok w := by
      intro w he
      have := evaluateSwitch_bound he hn
      simp only [Settings.padded] at hpad
      omega
    constructor
    · intro he; exact absurd he (hno v)
    · intro c' he
      cases hg : c.getMappingCase t with
      | ok x => rw [hg] at hget; simp at hget
      | err m => rw [hg] at he; simp at he
      | panic m => rw [hg] at he; simp at he

theorem findEntry_type {f : Font} {target t s e maps : Nat}
    (h : f.findEntry target = .ok (some (t, s, e, maps))) : t < 256 := by
  simp only [Font.findEntry, Res.bind_eq_ok] at h
  obtain ⟨n, _, i, _, h⟩ := h
  split at h
  · simp [Res.pure_eq] at h
  · simp only [Res.bind_eq_ok] at h
    obtain ⟨v, _, h⟩ := h
    split at h
    · simp [Res.pure_eq] at h
    · simp only [Res.bind_eq_ok, ite_panic, Res.pure_eq, Res.ok.injEq, Option.some.injEq,
        Prod.mk.injEq] at h
      obtain ⟨_, _, _, _, _, t', ht, rfl, _⟩ := h
      simp only [rd8, Res.bind_eq_ok, Res.pure_eq, Res.ok.injEq] at ht
      obtain ⟨b, _, rfl⟩ := ht
      exact b.toNat_lt

/-- The cached lookup is the direct lookup. -/
theorem utf8WithCache_eq {f : Font} {settings : List Nat} {c : SettingsCache}
    (h : Coherent f settings c) (target : Nat) (r : Option Font.Group) :
    (f.utf8 target settings = .ok r → ∃ c', utf8WithCache f target c = .ok (c', r) ∧
      Coherent f settings c') ∧
    ∀ c', utf8WithCache f target c = .ok (c', r) → f.utf8 target settings = .ok r := by
  rw [Font.utf8, utf8WithCache]
  cases he : f.findEntry target with
  | err m => simp
  | panic m => simp
  | ok x =>
    rw [Res.ok_bind, Res.ok_bind]
    cases x with
    | none =>
      simp only [Res.pure_eq, Res.ok.injEq, Prod.mk.injEq]
      exact ⟨fun e => ⟨c, ⟨rfl, e⟩, h⟩, fun c' e => e.2⟩
    | some x =>
      obtain ⟨t, s, e, maps⟩ := x
      have ht := findEntry_type he
      simp only
      by_cases h1 : t = 255
      · rw [if_pos h1, if_pos h1]
        simp only [Res.pure_eq, Res.ok.injEq, Prod.mk.injEq]
        exact ⟨fun e => ⟨c, ⟨rfl, e⟩, h⟩, fun c' e => e.2⟩
      · rw [if_neg h1, if_neg h1]
        by_cases h2 : t = 254
        · subst h2
          simp only [ne_eq, not_true_eq_false, if_false, Res.ok_bind, cachedCase, Res.bind_eq_ok,
            Res.pure_eq, Res.ok.injEq, Prod.mk.injEq]
          constructor
          · rintro ⟨s', hs, rfl⟩
            exact ⟨c, ⟨s', hs, rfl, rfl⟩, h⟩
          · rintro c' ⟨s', hs, rfl, rfl⟩
            exact ⟨s', hs, rfl⟩
        · have ht' : t < 254 := by omega
          rw [if_pos h2]
          constructor
          · intro hk
            simp only [Res.bind_eq_ok] at hk
            obtain ⟨v, hv, hk⟩ := hk
            obtain ⟨c', hc', hcoh⟩ := (cachedCase_eq h ht' v).1 hv
            refine ⟨c', ?_, hcoh⟩
            rw [hc', Res.ok_bind]
            obtain ⟨s', hs, hk⟩ := hk
            simp only [hs, Res.ok_bind, Res.pure_eq, Res.ok.injEq, Prod.mk.injEq, true_and]
            simpa using hk
          · intro c' hk
            simp only [Res.bind_eq_ok] at hk
            obtain ⟨⟨c2, v⟩, hv, hk⟩ := hk
            have hev := (cachedCase_eq h ht' v).2 c2 hv
            rw [hev, Res.ok_bind]
            simp only [Res.bind_eq_ok, Res.pure_eq, Res.ok.injEq, Prod.mk.injEq] at hk
            obtain ⟨s', hs, _, rfl⟩ := hk
            rw [hs]
            rfl

end CacheModel
