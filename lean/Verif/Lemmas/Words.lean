import Verif.Lemmas.GoMap
import Verif.Spec.Words
import Mathlib.Data.List.Perm.Subperm

/-! # The words that a font stores -/

namespace BuilderModel
open Go Spec

namespace GoMap
variable {K V : Type} [DecidableEq K]

theorem get_filter {m : GoMap K V} (h : m.keys.Nodup) (p : V → Bool) (k : K) :
    GoMap.get (m.filter fun e => p e.2 : GoMap K V) k = (m.get k).filter p := by
  induction m with
  | nil => rfl
  | cons e m ih =>
    obtain ⟨k', v⟩ := e
    rw [keys, List.map_cons, List.nodup_cons] at h
    have ih := ih h.2
    by_cases hk : k' = k
    · subst hk
      have hn : GoMap.get m k' = none := get_eq_none.2 h.1
      cases hp : p v
      · rw [List.filter_cons_of_neg (by simp [hp]), ih, hn]
        simp [get, Option.filter, hp]
      · rw [List.filter_cons_of_pos (by simp [hp])]
        simp [get, Option.filter, hp]
    · cases hp : p v
      · rw [List.filter_cons_of_neg (by simp [hp]), ih]
        simp [get, hk]
      · rw [List.filter_cons_of_pos (by simp [hp])]
        simp only [get, hk, if_false] at ih ⊢
        exact ih

theorem keys_set_mem {m : GoMap K V} {k : K} (h : k ∈ m.keys) (v : V) : (m.set k v).keys = m.keys := by
  rw [keys_set, if_pos h]

theorem mem_keys_of_get {m : GoMap K V} {k : K} {v : V} (h : m.get k = some v) : k ∈ m.keys := by
  by_cases hk : k ∈ m.keys
  · exact hk
  · rw [get_eq_none.2 hk] at h; cases h

end GoMap

namespace Builder

/-- `m` has the last index below `n` of every word of the table. -/
structure Lists (predef : Nat → Bytes) (n : Nat) (m : GoMap Bytes Int) : Prop where
  here : ∀ w v, m.get w = some v → 0 ≤ v ∧ v < n ∧ predef v.toNat = w ∧ ∀ j < n, predef j = w → j ≤ v
  all : ∀ j < n, ∃ v, m.get (predef j) = some v

theorem builtinLoop_lists {predef : Nat → Bytes} : ∀ (n i : Nat) (m : GoMap Bytes Int), Lists predef i m →
    Lists predef (i + n) (builtinLoop predef n i m)
  | 0, _, _, h => h
  | n + 1, i, m, h => by
    rw [builtinLoop]
    have : Lists predef (i + 1) (m.set (predef i) i) := by
      constructor
      · intro w v hv
        by_cases hw : w = predef i
        · subst hw
          rw [GoMap.get_set_self, Option.some.injEq] at hv
          subst hv
          refine ⟨by omega, by omega, by simp, fun j hj _ => by omega⟩
        · rw [GoMap.get_set_ne _ _ hw] at hv
          obtain ⟨h1, h2, h3, h4⟩ := h.here w v hv
          refine ⟨h1, by omega, h3, fun j hj e => ?_⟩
          by_cases hji : j = i
          · subst hji; exact absurd e.symm hw
          · exact h4 j (by omega) e
      · intro j hj
        by_cases hw : predef j = predef i
        · rw [hw]; exact ⟨_, GoMap.get_set_self _ _ _⟩
        · rw [GoMap.get_set_ne _ _ hw]
          refine h.all j ?_
          have : j ≠ i := fun e => hw (by rw [e])
          omega
    have := builtinLoop_lists n (i + 1) _ this
    rwa [Nat.add_right_comm] at this

theorem builtin_lists (predef : Nat → Bytes) : Lists predef 256 (builtinWords predef) := by
  have := builtinLoop_lists (predef := predef) 256 0 [] ⟨fun w v h => by simp [GoMap.get] at h, fun j hj => by omega⟩
  rw [Nat.zero_add] at this
  exact this

theorem builtin_none {predef : Nat → Bytes} {w : Bytes} :
    (builtinWords predef).get w = none ↔ ¬ Predefined predef w := by
  have h := builtin_lists predef
  constructor
  · rintro hn ⟨i, hi, rfl⟩
    obtain ⟨v, hv⟩ := h.all i hi
    rw [hv] at hn; cases hn
  · intro hn
    cases hg : (builtinWords predef).get w with
    | none => rfl
    | some v =>
      obtain ⟨h1, h2, h3, _⟩ := h.here w v hg
      exact absurd ⟨v.toNat, by omega, h3⟩ hn

/-! ## The options of all settings -/

theorem appendWords_spec : ∀ (os : List Bytes) (m : GoMap Bytes Int), m.keys.Nodup →
    (appendWords os m).keys.Nodup ∧ ∀ w, w ∈ (appendWords os m).keys ↔ w ∈ m.keys ∨ w ∈ os
  | [], m, h => ⟨h, fun w => by simp [appendWords]⟩
  | o :: os, m, h => by
    rw [appendWords]
    cases ho : m.get o with
    | some v =>
      simp only
      obtain ⟨h1, h2⟩ := appendWords_spec os m h
      refine ⟨h1, fun w => ?_⟩
      rw [h2, List.mem_cons]
      constructor
      · rintro (h | h) <;> first | exact .inl h | exact .inr (.inr h)
      · rintro (h | rfl | h) <;> first | exact .inl h | exact .inl (GoMap.mem_keys_of_get ho) | exact .inr h
    | none =>
      simp only
      obtain ⟨h1, h2⟩ := appendWords_spec os (m.set o 0) (GoMap.nodup_set h o 0)
      refine ⟨h1, fun w => ?_⟩
      rw [h2, List.mem_cons, GoMap.keys_set, if_neg (GoMap.get_eq_none.1 ho), List.mem_append, List.mem_singleton]
      exact ⟨by rintro ((h | h) | h) <;> first | exact .inl h | exact .inr (.inl h) | exact .inr (.inr h),
        by rintro (h | h | h) <;> first | exact .inl (.inl h) | exact .inl (.inr h) | exact .inr h⟩

/-! ## Indices -/

/-- The words of `cust` have the indices of the list; the others that are not in `ws` are builtin words, and
`minB` is the least of their indices. -/
structure Indexed (builtin : GoMap Bytes Int) (cust ws : List Bytes) (minB : Nat) (words : GoMap Bytes Int) : Prop where
  nodup : cust.Nodup
  index : ∀ j (h : j < cust.length), words.get cust[j] = some (j : Int)
  rest : ∀ w i, words.get w = some i → w ∈ cust ∨ w ∈ ws ∨ (i < 0 ∧ builtin.get w = some (-i))
  low : ∀ w i, words.get w = some i → w ∉ cust → w ∉ ws → (minB : Int) ≤ -i
  hit : minB = 65535 ∨ 0 < minB ∧ ∃ w, w ∉ ws ∧ words.get w = some (-(minB : Int))

theorem Indexed.neg {builtin words : GoMap Bytes Int} {cust ws : List Bytes} {minB : Nat}
    (h : Indexed builtin cust ws minB words) {w : Bytes} {i : Int} (hi : words.get w = some i) (hn : i < 0) : w ∉ cust := by
  intro hc
  obtain ⟨j, hj, rfl⟩ := List.getElem_of_mem hc
  rw [h.index j hj, Option.some.injEq] at hi
  omega

theorem organizeLoop_spec {builtin : GoMap Bytes Int} (hpos : ∀ w v, builtin.get w = some v → 0 < v ∧ v < 256) :
    ∀ (ws cust : List Bytes) (minB : Nat) (words : GoMap Bytes Int), ws.Nodup → (∀ w ∈ ws, w ∈ words.keys) →
    (∀ w ∈ cust, w ∉ ws) → Indexed builtin cust ws minB words →
    ∃ words' cust' minB', organizeLoop builtin ws words cust.length minB = (words', cust'.length, minB') ∧
      Indexed builtin cust' [] minB' words' ∧ words'.keys = words.keys ∧
      ∀ w, w ∈ cust' ↔ w ∈ cust ∨ w ∈ ws ∧ builtin.get w = none
  | [], cust, minB, words, _, _, _, h => ⟨words, cust, minB, rfl, h, rfl, by simp⟩
  | w :: ws, cust, minB, words, hn, hk, ha, h => by
    rw [List.nodup_cons] at hn
    have hwk := hk w (by simp)
    have hwc : w ∉ cust := fun hc => ha w hc (by simp)
    rw [organizeLoop]
    cases hb : builtin.get w with
    | some i =>
      obtain ⟨hi, hi'⟩ := hpos w i hb
      simp only
      have h1 : Indexed builtin cust ws (min i.toNat minB) (words.set w (-i)) := by
        refine ⟨h.nodup, fun j hj => ?_, fun x v hx => ?_, fun x v hx h1 h2 => ?_, ?_⟩
        · rw [GoMap.get_set_ne _ _ (fun e => hwc (by rw [← e]; exact List.getElem_mem hj))]; exact h.index j hj
        · by_cases hxw : x = w
          · subst hxw
            rw [GoMap.get_set_self, Option.some.injEq] at hx
            subst hx
            exact .inr (.inr ⟨by omega, by rw [hb]; simp⟩)
          · rw [GoMap.get_set_ne _ _ hxw] at hx
            rcases h.rest x v hx with h1 | h1 | h1
            · exact .inl h1
            · rcases List.mem_cons.1 h1 with h1 | h1
              · exact absurd h1 hxw
              · exact .inr (.inl h1)
            · exact .inr (.inr h1)
        · by_cases hxw : x = w
          · subst hxw
            rw [GoMap.get_set_self, Option.some.injEq] at hx
            subst hx
            omega
          · rw [GoMap.get_set_ne _ _ hxw] at hx
            have := h.low x v hx h1 (by simp [hxw, h2])
            omega
        · by_cases hm : i.toNat ≤ minB
          · refine .inr ⟨by omega, w, hn.1, ?_⟩
            rw [GoMap.get_set_self, Nat.min_eq_left hm, Option.some.injEq]
            omega
          · rw [Nat.min_eq_right (by omega)]
            rcases h.hit with h1 | ⟨h1, x, h2, h3⟩
            · exact .inl h1
            · refine .inr ⟨h1, x, fun e => h2 (by simp [e]), ?_⟩
              rw [GoMap.get_set_ne _ _ (fun e => h2 (by simp [e]))]
              exact h3
      obtain ⟨words', cust', minB', h2, h3, h4, h5⟩ := organizeLoop_spec hpos ws cust _ _ hn.2
        (fun x hx => by rw [GoMap.keys_set_mem hwk]; exact hk x (by simp [hx]))
        (fun x hx hx' => ha x hx (by simp [hx'])) h1
      refine ⟨words', cust', minB', h2, h3, h4.trans (GoMap.keys_set_mem hwk _), fun x => ?_⟩
      rw [h5, List.mem_cons]
      constructor
      · rintro (h | ⟨h, h'⟩) <;> first | exact .inl h | exact .inr ⟨.inr h, h'⟩
      · rintro (h | ⟨rfl | h, h'⟩)
        · exact .inl h
        · rw [hb] at h'; cases h'
        · exact .inr ⟨h, h'⟩
    | none =>
      simp only
      have h1 : Indexed builtin (cust ++ [w]) ws minB (words.set w cust.length) := by
        refine ⟨?_, fun j hj => ?_, fun x v hx => ?_, fun x v hx h1 h2 => ?_, ?_⟩
        · rw [List.nodup_append]
          exact ⟨h.nodup, by simp, fun a ha b hb => by rw [List.mem_singleton.1 hb]; exact fun e => hwc (by rw [← e]; exact ha)⟩
        · by_cases hjl : j < cust.length
          · rw [List.getElem_append_left hjl, GoMap.get_set_ne _ _ (fun e => hwc (by rw [← e]; exact List.getElem_mem hjl))]
            exact h.index j hjl
          · rw [List.length_append, List.length_singleton] at hj
            have : j = cust.length := by omega
            subst this
            rw [List.getElem_concat_length rfl, GoMap.get_set_self]
        · by_cases hxw : x = w
          · exact .inl (by simp [hxw])
          · rw [GoMap.get_set_ne _ _ hxw] at hx
            rcases h.rest x v hx with h1 | h1 | h1
            · exact .inl (by simp [h1])
            · rcases List.mem_cons.1 h1 with h1 | h1
              · exact absurd h1 hxw
              · exact .inr (.inl h1)
            · exact .inr (.inr h1)
        · have hxw : x ≠ w := fun e => h1 (by simp [e])
          rw [GoMap.get_set_ne _ _ hxw] at hx
          exact h.low x v hx (fun e => h1 (by simp [e])) (by simp [hxw, h2])
        · rcases h.hit with h1 | ⟨h1, x, h2, h3⟩
          · exact .inl h1
          · refine .inr ⟨h1, x, fun e => h2 (by simp [e]), ?_⟩
            rw [GoMap.get_set_ne _ _ (fun e => h2 (by simp [e]))]
            exact h3
      have hlen : (cust ++ [w]).length = cust.length + 1 := by simp
      obtain ⟨words', cust', minB', h2, h3, h4, h5⟩ := organizeLoop_spec hpos ws (cust ++ [w]) _ _ hn.2
        (fun x hx => by rw [GoMap.keys_set_mem hwk]; exact hk x (by simp [hx]))
        (fun x hx hx' => by
          rcases List.mem_append.1 hx with hx | hx
          · exact ha x hx (by simp [hx'])
          · rw [List.mem_singleton.1 hx] at hx'; exact hn.1 hx') h1
      rw [hlen] at h2
      refine ⟨words', cust', minB', h2, h3, h4.trans (GoMap.keys_set_mem hwk _), fun x => ?_⟩
      rw [h5, List.mem_cons, List.mem_append, List.mem_singleton]
      constructor
      · rintro ((h | rfl) | ⟨h, h'⟩) <;> first | exact .inl h | exact .inr ⟨.inl rfl, hb⟩ | exact .inr ⟨.inr h, h'⟩
      · rintro (h | ⟨rfl | h, h'⟩) <;> first | exact .inl (.inl h) | exact .inl (.inr rfl) | exact .inr ⟨h, h'⟩

/-- The same with everything settled but the minimum, which concerns what is not in `ws`. -/
structure Settled (builtin : GoMap Bytes Int) (target : Int) (cust ws : List Bytes) (minB : Nat)
    (words : GoMap Bytes Int) : Prop where
  nodup : cust.Nodup
  index : ∀ j (h : j < cust.length), words.get cust[j] = some (j : Int)
  rest : ∀ w i, words.get w = some i → w ∈ cust ∨ (i < 0 ∧ builtin.get w = some (-i))
  low : ∀ w i, words.get w = some i → w ∉ cust → w ∉ ws → (minB : Int) ≤ -i
  hit : minB = 65535 ∨ 0 < minB ∧ -(minB : Int) ≠ target ∧ ∃ w, words.get w = some (-(minB : Int))

theorem reindexLoop_spec {builtin : GoMap Bytes Int} {target : Int} (ht : target < 0) :
    ∀ (ws cust : List Bytes) (minB : Nat) (words : GoMap Bytes Int), (∀ w ∈ ws, w ∈ words.keys) →
    Settled builtin target cust ws minB words →
    ∃ words' cust' minB', reindexLoop target ws words cust.length minB = (words', cust'.length, minB') ∧
      Settled builtin target cust' [] minB' words' ∧ words'.keys = words.keys ∧ cust <+: cust' ∧
      ((∃ w ∈ ws, words.get w = some target) → cust.length < cust'.length)
  | [], cust, minB, words, _, h => ⟨words, cust, minB, rfl, h, rfl, List.prefix_refl _, by simp⟩
  | w :: ws, cust, minB, words, hk, h => by
    have hwk := hk w (by simp)
    rw [reindexLoop]
    cases hg : words.get w with
    | none => exact absurd hwk (GoMap.get_eq_none.1 hg)
    | some i =>
      simp only
      have hneg : i < 0 → w ∉ cust := by
        intro hi hc
        obtain ⟨j, hj, rfl⟩ := List.getElem_of_mem hc
        rw [h.index j hj, Option.some.injEq] at hg
        omega
      by_cases hi : i = target
      · subst hi
        rw [if_pos rfl]
        have hwc := hneg ht
        have h1 : Settled builtin i (cust ++ [w]) ws minB (words.set w cust.length) := by
          refine ⟨?_, fun j hj => ?_, fun x v hx => ?_, fun x v hx h1 h2 => ?_, ?_⟩
          · rw [List.nodup_append]
            exact ⟨h.nodup, by simp, fun a ha b hb => by rw [List.mem_singleton.1 hb]; exact fun e => hwc (by rw [← e]; exact ha)⟩
          · by_cases hjl : j < cust.length
            · rw [List.getElem_append_left hjl, GoMap.get_set_ne _ _ (fun e => hwc (by rw [← e]; exact List.getElem_mem hjl))]
              exact h.index j hjl
            · rw [List.length_append, List.length_singleton] at hj
              have : j = cust.length := by omega
              subst this
              rw [List.getElem_concat_length rfl, GoMap.get_set_self]
          · by_cases hxw : x = w
            · exact .inl (by simp [hxw])
            · rw [GoMap.get_set_ne _ _ hxw] at hx
              rcases h.rest x v hx with h1 | h1
              · exact .inl (by simp [h1])
              · exact .inr h1
          · have hxw : x ≠ w := fun e => h1 (by simp [e])
            rw [GoMap.get_set_ne _ _ hxw] at hx
            exact h.low x v hx (fun e => h1 (by simp [e])) (by simp [hxw, h2])
          · rcases h.hit with h1 | ⟨h1, h2, x, h3⟩
            · exact .inl h1
            · refine .inr ⟨h1, h2, x, ?_⟩
              rw [GoMap.get_set_ne _ _ (fun e => h2 (by rw [e, hg, Option.some.injEq] at h3; exact h3.symm))]
              exact h3
        have hlen : (cust ++ [w]).length = cust.length + 1 := by simp
        obtain ⟨words', cust', minB', h2, h3, h4, h5, _⟩ := reindexLoop_spec ht ws (cust ++ [w]) _ _
          (fun x hx => by rw [GoMap.keys_set_mem hwk]; exact hk x (by simp [hx])) h1
        rw [hlen] at h2
        refine ⟨words', cust', minB', h2, h3, h4.trans (GoMap.keys_set_mem hwk _),
          (List.prefix_append _ _).trans h5, fun _ => ?_⟩
        have := h5.length_le
        omega
      · rw [if_neg hi]
        have hmore : (∃ x ∈ w :: ws, words.get x = some target) → ∃ x ∈ ws, words.get x = some target := by
          rintro ⟨x, hx, hx'⟩
          rcases List.mem_cons.1 hx with rfl | hx
          · rw [hg, Option.some.injEq] at hx'; exact absurd hx' hi
          · exact ⟨x, hx, hx'⟩
        by_cases hn : i < 0
        · rw [if_pos hn]
          have h1 : Settled builtin target cust ws (min (-i).toNat minB) words := by
            refine ⟨h.nodup, h.index, h.rest, fun x v hx h1 h2 => ?_, ?_⟩
            · by_cases hxw : x = w
              · subst hxw
                rw [hg, Option.some.injEq] at hx
                subst hx
                omega
              · have := h.low x v hx h1 (by simp [hxw, h2])
                omega
            · by_cases hm : (-i).toNat ≤ minB
              · rw [Nat.min_eq_left hm]
                refine .inr ⟨by omega, by omega, w, ?_⟩
                rw [hg, Option.some.injEq]
                omega
              · rw [Nat.min_eq_right (by omega)]
                exact h.hit
          obtain ⟨words', cust', minB', h2, h3, h4, h5, h6⟩ := reindexLoop_spec ht ws cust _ _
            (fun x hx => hk x (by simp [hx])) h1
          exact ⟨words', cust', minB', h2, h3, h4, h5, fun e => h6 (hmore e)⟩
        · rw [if_neg hn]
          have hwc : w ∈ cust := by
            rcases h.rest w i hg with h1 | h1
            · exact h1
            · exact absurd h1.1 hn
          have h1 : Settled builtin target cust ws minB words := by
            refine ⟨h.nodup, h.index, h.rest, fun x v hx h1 h2 => ?_, h.hit⟩
            have hxw : x ≠ w := fun e => h1 (by rw [e]; exact hwc)
            exact h.low x v hx h1 (by simp [hxw, h2])
          obtain ⟨words', cust', minB', h2, h3, h4, h5, h6⟩ := reindexLoop_spec ht ws cust _ _
            (fun x hx => hk x (by simp [hx])) h1
          exact ⟨words', cust', minB', h2, h3, h4, h5, fun e => h6 (hmore e)⟩

theorem resolveLoop_spec {builtin : GoMap Bytes Int} {order : Nat → List Bytes → List Bytes}
    (ho : ∀ i l, (order i l).Perm l) : ∀ (fuel pass : Nat) (cust : List Bytes) (minB : Nat) (words : GoMap Bytes Int),
    words.keys.Nodup → words.length ≤ 255 → words.length < fuel + cust.length → Indexed builtin cust [] minB words →
    ∃ words' cust', resolveLoop order fuel pass words cust.length minB = .ok words' ∧ cust <+: cust' ∧
      words'.keys = words.keys ∧ ∃ minB', Indexed builtin cust' [] minB' words' ∧ cust'.length ≤ minB' := by
  have small : ∀ {cust : List Bytes} {minB : Nat} {words : GoMap Bytes Int}, Indexed builtin cust [] minB words →
      words.keys.Nodup → cust.length ≤ words.length := by
    intro cust minB words h hn
    have : cust.Subperm words.keys := List.subperm_of_subset h.nodup (by
      intro x hx
      obtain ⟨j, hj, rfl⟩ := List.getElem_of_mem hx
      exact GoMap.mem_keys_of_get (h.index j hj))
    have := this.length_le
    rwa [GoMap.keys, List.length_map] at this
  intro fuel
  induction fuel with
  | zero =>
    intro pass cust minB words hn _ hf h
    have := small h hn
    omega
  | succ fuel ih =>
    intro pass cust minB words hn hl hf h
    rw [resolveLoop]
    by_cases hm : minB < cust.length
    · rw [if_pos hm]
      have hc := small h hn
      obtain ⟨h1, x, _, hx⟩ : 0 < minB ∧ ∃ w, w ∉ ([] : List Bytes) ∧ words.get w = some (-(minB : Int)) := by
        rcases h.hit with h1 | h1
        · omega
        · exact h1
      have hp := ho pass words.keys
      obtain ⟨words', cust', minB', h2, h3, h4, h5, h6⟩ := reindexLoop_spec (builtin := builtin) (target := -(minB : Int))
        (by omega) (order pass words.keys) cust 65535 words (fun w hw => hp.mem_iff.1 hw)
        ⟨h.nodup, h.index, fun w i hw => by
            rcases h.rest w i hw with h | h | h
            · exact .inl h
            · cases h
            · exact .inr h,
          fun w i hw _ hw' => absurd (hp.mem_iff.2 (GoMap.mem_keys_of_get hw)) hw', .inl rfl⟩
      have h6 := h6 ⟨x, hp.mem_iff.2 (GoMap.mem_keys_of_get hx), hx⟩
      have hl' : words'.length = words.length := by
        have := congrArg List.length h4
        simpa [GoMap.keys] using this
      obtain ⟨words2, cust2, h7, h8, h9, h10⟩ := ih (pass + 1) cust' minB' words' (by rw [h4]; exact hn) (by omega)
        (by omega) ⟨h3.nodup, h3.index, fun w i hw => by
            rcases h3.rest w i hw with h | h
            · exact .inl h
            · exact .inr (.inr h), h3.low, by
          rcases h3.hit with h | ⟨h1, _, w, h⟩
          · exact .inl h
          · exact .inr ⟨h1, w, by simp, h⟩⟩
      refine ⟨words2, cust2, ?_, h5.trans h8, h9.trans h4, h10⟩
      rw [h2]
      exact h7
    · rw [if_neg hm]
      exact ⟨words, cust, rfl, List.prefix_refl _, rfl, minB, h, by omega⟩

/-- The words that are stored: `cust` in the order of their indices. The other options are predefined words
with greater indices. -/
structure Stores (predef : Nat → Bytes) (b : Builder) (words : GoMap Bytes Int) (cust : List Bytes) : Prop where
  nodup : cust.Nodup
  perm : words.keys.Perm cust
  count : cust.length ≤ 255
  index : ∀ j (h : j < cust.length), words.get cust[j] = some (j : Int)
  option : ∀ w ∈ cust, IsOption b w
  own : ∀ w, IsOption b w → ¬ Predefined predef w → w ∈ cust
  rest : ∀ w, IsOption b w → w ∉ cust → words.get w = none ∧ ∃ i : Nat, (builtinWords predef).get w = some (i : Int) ∧
    cust.length ≤ i ∧ i < 256 ∧ predef i = w

theorem settingWords_spec {env : Env} (hf : Fair env) {b : Builder} (hz : ∃ k, 0 < k ∧ k < 256 ∧ env.predef k = env.predef 0)
    {words builtin : GoMap Bytes Int} (h : settingWords env b = .ok (words, builtin)) :
    (∃ cust, Stores env.predef b words cust ∧
      ((∀ v w, IsOption b v → IsOption b w → ¬ Predefined env.predef v → ¬ Predefined env.predef w → v = w) →
        cust.length ≤ 1)) ∧
      (words = [] ∧ builtin = [] ∧ (∀ w, ¬ IsOption b w) ∨ builtin = builtinWords env.predef) := by
  obtain ⟨hn, hm⟩ := appendWords_spec (b.settings.map (·.options)).flatten [] (by simp [GoMap.keys])
  have hmem : ∀ w, w ∈ (appendWords (b.settings.map (·.options)).flatten []).keys ↔ IsOption b w := by
    intro w
    rw [hm, List.mem_flatten]
    constructor
    · rintro (h | ⟨l, hl, hw⟩)
      · simp [GoMap.keys] at h
      · obtain ⟨s, hs, rfl⟩ := List.mem_map.1 hl
        exact ⟨s, hs, hw⟩
    · rintro ⟨s, hs, hw⟩
      exact .inr ⟨_, List.mem_map.2 ⟨s, hs, rfl⟩, hw⟩
  unfold settingWords at h
  generalize appendWords (b.settings.map (·.options)).flatten [] = W at *
  simp only at h
  by_cases hW : W = []
  · subst hW
    rw [if_pos rfl] at h
    simp only [Res.pure_eq, Res.ok.injEq, Prod.mk.injEq] at h
    obtain ⟨rfl, rfl⟩ := h
    have hno : ∀ w, ¬ IsOption b w := fun w hw => by
      have := (hmem w).2 hw
      simp [GoMap.keys] at this
    exact ⟨⟨[], ⟨by simp, by simp [GoMap.keys], by simp, fun j h => by simp at h, by simp,
      fun w hw => absurd hw (hno w), fun w hw => absurd hw (hno w)⟩, by simp⟩, .inl ⟨rfl, rfl, hno⟩⟩
  · rw [if_neg hW] at h
    simp only [Res.bind_eq_ok, Res.pure_eq, Res.ok.injEq, Prod.mk.injEq] at h
    obtain ⟨words1, h1, rfl, rfl⟩ := h
    refine ⟨?_, .inr rfl⟩
    have hlist := builtin_lists env.predef
    have hpos : ∀ w v, (builtinWords env.predef).get w = some v → 0 < v ∧ v < 256 := by
      intro w v hv
      obtain ⟨h2, h3, h4, h5⟩ := hlist.here w v hv
      obtain ⟨k, hk, hk', hkz⟩ := hz
      by_cases hv0 : v = 0
      · subst hv0
        have := h5 k (by omega) (hkz.trans h4)
        omega
      · omega
    unfold organizeWords at h1
    by_cases hc : W.length > 255
    · rw [if_pos hc] at h1; cases h1
    rw [if_neg hc] at h1
    have hp := hf.organize 0 W.keys
    obtain ⟨W1, cust1, minB1, e1, i1, k1, m1⟩ := organizeLoop_spec hpos (env.organizeOrder 0 W.keys) [] 65535 W
      (hp.nodup_iff.2 hn) (fun w hw => hp.mem_iff.1 hw) (by simp)
      ⟨by simp, fun j h => by simp at h, fun w i hw => .inr (.inl (hp.mem_iff.2 (GoMap.mem_keys_of_get hw))),
        fun w i hw _ hw' => absurd (hp.mem_iff.2 (GoMap.mem_keys_of_get hw)) hw', .inl rfl⟩
    rw [List.length_nil] at e1
    rw [e1] at h1
    have hl1 : W1.length = W.length := by
      have := congrArg List.length k1
      simpa [GoMap.keys] using this
    obtain ⟨W2, cust2, e2, p2, k2, minB2, i2, l2⟩ := resolveLoop_spec (builtin := builtinWords env.predef) hf.organize
      (W1.length + 1) 1 cust1 minB1 W1 (by rw [k1]; exact hn) (by omega) (by omega) i1
    simp only [e2, Res.ok_bind, Res.pure_eq, Res.ok.injEq] at h1
    subst h1
    have hk2 : W2.keys = W.keys := k2.trans k1
    have hn2 : W2.keys.Nodup := by rw [hk2]; exact hn
    have hl2 : W2.length = W.length := by
      have := congrArg List.length hk2
      simpa [GoMap.keys] using this
    have hget := fun w => GoMap.get_filter hn2 (fun v : Int => !decide (v < 0)) w
    have hmem2 : ∀ w, w ∈ GoMap.keys (W2.filter fun e => !decide (e.2 < 0) : GoMap Bytes Int) ↔ w ∈ cust2 := by
      intro w
      constructor
      · intro hw
        cases hg : GoMap.get (W2.filter fun e => !decide (e.2 < 0) : GoMap Bytes Int) w with
        | none => exact absurd hw (GoMap.get_eq_none.1 hg)
        | some v =>
          rw [hget, Option.filter_eq_some_iff] at hg
          rcases i2.rest w v hg.1 with h | h | h
          · exact h
          · cases h
          · have := hg.2
            simp only [Bool.not_eq_true', decide_eq_false_iff_not] at this
            omega
      · intro hw
        obtain ⟨j, hj, rfl⟩ := List.getElem_of_mem hw
        refine GoMap.mem_keys_of_get (v := (j : Int)) ?_
        rw [hget, i2.index j hj]
        simp
    have hnf : (GoMap.keys (W2.filter fun e => !decide (e.2 < 0) : GoMap Bytes Int)).Nodup := by
      refine List.Nodup.sublist ?_ hn2
      rw [GoMap.keys, GoMap.keys]
      exact List.filter_sublist.map _
    have hperm := (List.perm_ext_iff_of_nodup hnf i2.nodup).2 hmem2
    have hcl : cust2.length ≤ 255 := by
      have h := hperm.length_eq
      rw [GoMap.keys, List.length_map] at h
      have := List.length_filter_le (fun e : Bytes × Int => !decide (e.2 < 0)) W2
      omega
    have hcu : ∀ w ∈ cust2, IsOption b w := by
      intro w hw
      obtain ⟨j, hj, rfl⟩ := List.getElem_of_mem hw
      have := GoMap.mem_keys_of_get (i2.index j hj)
      rw [hk2] at this
      exact (hmem _).1 this
    refine ⟨cust2, ⟨i2.nodup, hperm, hcl, fun j hj => ?_, hcu, ?_, ?_⟩, ?_⟩
    · rw [hget, i2.index j hj]
      simp
    · intro w hw hpw
      refine p2.subset ((m1 w).2 (.inr ⟨hp.mem_iff.2 ((hmem w).2 hw), builtin_none.2 hpw⟩))
    · intro w hw hwc
      have hwk : w ∈ W2.keys := by rw [hk2]; exact (hmem w).2 hw
      cases hg : W2.get w with
      | none => exact absurd hwk (GoMap.get_eq_none.1 hg)
      | some i =>
        rcases i2.rest w i hg with h | h | ⟨h, hb⟩
        · exact absurd h hwc
        · cases h
        · have hlow := i2.low w i hg hwc (by simp)
          obtain ⟨h2, h3, h4, _⟩ := hlist.here w _ hb
          refine ⟨?_, (-i).toNat, ?_, by omega, by omega, h4⟩
          · rw [hget, hg]
            simp [h]
          · rw [hb, Int.toNat_of_nonneg h2]
    · intro hone
      have hc1 : cust1.length ≤ 1 := by
        match cust1, i1.nodup, m1 with
        | [], _, _ => simp
        | [_], _, _ => simp
        | v :: w :: _, hnd, m1 =>
          have hv := (m1 v).1 (by simp)
          have hw := (m1 w).1 (by simp)
          simp only [List.not_mem_nil, false_or] at hv hw
          have := hone v w ((hmem v).1 (hp.mem_iff.1 hv.1)) ((hmem w).1 (hp.mem_iff.1 hw.1)) (builtin_none.1 hv.2)
            (builtin_none.1 hw.2)
          subst this
          simp at hnd
      have hge : ¬ minB1 < cust1.length := by
        intro hlt
        rcases i1.hit with h | ⟨h, _⟩ <;> omega
      rw [resolveLoop, if_neg hge, Res.ok.injEq] at e2
      subst e2
      have : ∀ w ∈ cust2, w ∈ cust1 := by
        intro w hw
        obtain ⟨j, hj, rfl⟩ := List.getElem_of_mem hw
        rcases i1.rest _ _ (i2.index j hj) with h | h | h
        · exact h
        · cases h
        · omega
      have := (List.subperm_of_subset i2.nodup this).length_le
      omega

end Builder
end BuilderModel
