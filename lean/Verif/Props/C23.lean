import Verif.Lemmas.BuiltMapping
import Verif.Lemmas.Overflow

/-!
# C23: mapping switches are a bijection between setting combinations and cases

The case is the mixed radix number of the settings, reduced to 8 bits. It is a bijection for switches
with up to 256 combinations, which `AddSwitch` does not check.
-/

namespace C23
open Go Spec FontModel BuilderModel

/-- The case is the mixed radix number of the values of the settings, modulo 256. -/
theorem evaluate (env : Env) (b b' : Builder) (f : Font) (h : b.build env = .ok (b', f)) (k : Nat)
    (hk : k < b.switches.length) (hok : SwitchOk b b.switches[k]) (settings : List Nat)
    (hset : b.settings.length ≤ settings.length) :
    f.evaluateSwitch k settings = .ok
      (mixedRadix (b.switches[k].map fun j => (options b j, settings.getD j 0)) % 256) := by
  obtain ⟨s, w, bi, hB⟩ := build_parts h
  exact evaluate_built hB hk hok hset

/-- With up to 256 combinations: the case is the mixed radix number, and below the number of
combinations. -/
theorem evaluate_partial (env : Env) (b b' : Builder) (f : Font) (h : b.build env = .ok (b', f))
    (k : Nat) (hk : k < b.switches.length) (hok : SwitchOk b b.switches[k])
    (hsmall : combinations (b.switches[k].map (options b)) ≤ 256) (settings : List Nat)
    (hset : b.settings.length ≤ settings.length)
    (hval : ∀ j ∈ b.switches[k], settings.getD j 0 < options b j) :
    f.evaluateSwitch k settings = .ok
      (mixedRadix (b.switches[k].map fun j => (options b j, settings.getD j 0))) ∧
    mixedRadix (b.switches[k].map fun j => (options b j, settings.getD j 0)) <
      combinations (b.switches[k].map (options b)) := by
  have hlt := mixedRadix_lt (b.switches[k].map fun j => (options b j, settings.getD j 0)) (by
    intro d hd
    obtain ⟨j, hj, rfl⟩ := List.mem_map.1 hd
    exact hval j hj)
  rw [List.map_map] at hlt
  refine ⟨?_, hlt⟩
  rw [evaluate env b b' f h k hk hok settings hset, Nat.mod_eq_of_lt (Nat.lt_of_lt_of_le hlt hsmall)]

/-- With up to 256 combinations: different values of the settings of the switch give different cases. -/
theorem injective_partial (env : Env) (b b' : Builder) (f : Font) (h : b.build env = .ok (b', f))
    (k : Nat) (hk : k < b.switches.length) (hok : SwitchOk b b.switches[k])
    (hsmall : combinations (b.switches[k].map (options b)) ≤ 256) (s t : List Nat)
    (hs : b.settings.length ≤ s.length) (ht : b.settings.length ≤ t.length)
    (hsv : ∀ j ∈ b.switches[k], s.getD j 0 < options b j)
    (htv : ∀ j ∈ b.switches[k], t.getD j 0 < options b j)
    (heq : f.evaluateSwitch k s = f.evaluateSwitch k t) :
    ∀ j ∈ b.switches[k], s.getD j 0 = t.getD j 0 := by
  rw [(evaluate_partial env b b' f h k hk hok hsmall s hs hsv).1,
    (evaluate_partial env b b' f h k hk hok hsmall t ht htv).1, Res.ok.injEq] at heq
  have := mixedRadix_inj _ _ (by simp only [List.map_map]; rfl) (by
    intro d hd
    obtain ⟨j, hj, rfl⟩ := List.mem_map.1 hd
    exact hsv j hj) (by
    intro d hd
    obtain ⟨j, hj, rfl⟩ := List.mem_map.1 hd
    exact htv j hj) heq
  intro j hj
  have := List.map_inj_left.1 this j hj
  exact (Prod.mk.inj this).2

/-- With up to 256 combinations: every case is reached by settings that are in range. The settings of
a switch are different (which `AddSwitch` checks, see `addSwitch_exact`). -/
theorem surjective_partial (env : Env) (b b' : Builder) (f : Font) (h : b.build env = .ok (b', f))
    (k : Nat) (hk : k < b.switches.length) (hok : SwitchOk b b.switches[k])
    (hnd : b.switches[k].Nodup)
    (hsmall : combinations (b.switches[k].map (options b)) ≤ 256) (c : Nat)
    (hc : c < combinations (b.switches[k].map (options b))) :
    ∃ settings : List Nat, settings.length = b.settings.length ∧
      (∀ j ∈ b.switches[k], settings.getD j 0 < options b j) ∧
      f.evaluateSwitch k settings = .ok c := by
  obtain ⟨l, hl, hd, hm⟩ := mixedRadix_surj _ c hc
  -- the setting at position `i` of the switch gets the digit `i`
  let st : List Nat := (List.range b.settings.length).map fun j =>
    ((l[b.switches[k].idxOf j]?).map Prod.snd).getD 0
  have hlen : l.length = b.switches[k].length := by
    have := congrArg List.length hl
    simpa using this
  have hget : ∀ i (hi : i < b.switches[k].length),
      st.getD b.switches[k][i] 0 = (l[i]'(by omega)).2 := by
    intro i hi
    have hlt := hok.exist _ (List.getElem_mem hi)
    simp only [st, List.getD_eq_getElem?_getD, List.getElem?_map, List.getElem?_range hlt,
      Option.map_some, Option.getD_some, idxOf_getElem hnd hi, List.getElem?_eq_getElem (show i < l.length by omega)]
  have hfst : ∀ i (hi : i < b.switches[k].length), (l[i]'(by omega)).1 = options b b.switches[k][i] := by
    intro i hi
    have := congrArg (fun x => x[i]?) hl
    simp only [List.getElem?_map, List.getElem?_eq_getElem hi,
      List.getElem?_eq_getElem (show i < l.length by omega), Option.map_some, Option.some.injEq] at this
    exact this
  have hlist : (b.switches[k].map fun j => (options b j, st.getD j 0)) = l := by
    apply List.ext_getElem (by simp [hlen])
    intro i h1 h2
    simp only [List.length_map] at h1
    rw [List.getElem_map, hget i h1, ← hfst i h1]
  have hval : ∀ j ∈ b.switches[k], st.getD j 0 < options b j := by
    intro j hj
    obtain ⟨i, hi, rfl⟩ := List.getElem_of_mem hj
    rw [hget i hi, ← hfst i hi]
    exact hd _ (List.getElem_mem _)
  refine ⟨st, by simp [st], hval, ?_⟩
  rw [(evaluate_partial env b b' f h k hk hok hsmall st (by simp [st]) hval).1, hlist, hm]

/-- The number of groups that the mapping functions ask for is the number of combinations, as a signed number of 64
bits. -/
theorem numCases (b : Builder) (hne : ∀ s ∈ b.switches, s ≠ []) (k : Nat) (n : Int) (hk : k < 254)
    (h : b.computeNumSwitchCases k = .ok n) :
    ∃ sw, b.switches[k]? = some sw ∧ -9223372036854775808 ≤ n ∧ n < 9223372036854775808 ∧
      (18446744073709551616 : Int) ∣ combinations (sw.map (options b)) - n := by
  obtain ⟨sw, h1, _, _, h2⟩ := numCases_ok hk h hne
  refine ⟨sw, h1, ?_⟩
  rw [Builder.wrapInt, Int.bmod_def] at h2
  split at h2 <;> omega

/-- It is the number of combinations when that fits. Missing: switches with more combinations (`numCases_violated`). -/
theorem numCases_partial (b : Builder) (hne : ∀ s ∈ b.switches, s ≠ []) (k : Nat) (n : Int) (hk : k < 254)
    (h : b.computeNumSwitchCases k = .ok n) :
    ∃ sw, b.switches[k]? = some sw ∧ (combinations (sw.map (options b)) < 9223372036854775808 →
      n = combinations (sw.map (options b))) := by
  obtain ⟨sw, h1, h2, h3, h4⟩ := numCases b hne k n hk h
  exact ⟨sw, h1, fun h => by omega⟩

/-- A switch on 64 settings with two options each: no groups are asked for. -/
theorem numCases_violated : Reachable Sample.wideSwitch ∧ Sample.wideSwitch.switches = [List.range 64] ∧
    combinations ((List.range 64).map (options Sample.wideSwitch)) = 18446744073709551616 ∧
    Sample.wideSwitch.computeNumSwitchCases 0 = .ok 0 ∧
    Sample.wideSwitch.mapWithSwitchSingles 65 0 [] = .ok Sample.noCases := by
  refine ⟨wideSwitch_reachable, ?_, ?_, ?_, ?_⟩ <;> decide +kernel

/-- `AddSwitch` accepts exactly the lists of 1 to 255 different settings that exist, up to 254 times. -/
theorem addSwitch_exact (b : Builder) (settings : List Nat) :
    (b.addSwitch settings = .ok ({ b with switches := b.switches ++ [settings] }, b.switches.length) ∧
      settings ≠ [] ∧ settings.length ≤ 255 ∧ b.switches.length < 254 ∧ settings.Nodup ∧
      ∀ k ∈ settings, k < b.settings.length) ∨
    ((∃ m, b.addSwitch settings = .err m) ∧ ¬ (settings ≠ [] ∧ settings.length ≤ 255 ∧
      b.switches.length < 254 ∧ settings.Nodup ∧ ∀ k ∈ settings, k < b.settings.length)) := by
  rw [Builder.addSwitch]
  split
  · rename_i h
    refine .inr ⟨⟨_, rfl⟩, ?_⟩
    rintro ⟨h1, h2, -⟩
    have := List.length_pos_iff.2 h1
    omega
  · split
    · exact .inr ⟨⟨_, rfl⟩, fun h => by omega⟩
    · rename_i h1 h2
      rcases checkSwitch_eq b.settings.length settings [] with ⟨h3, h4, h5⟩ | ⟨⟨m, h3⟩, h4⟩
      · rw [h3]
        refine .inl ⟨rfl, fun e => ?_, by omega, by omega, by simpa using h4, h5⟩
        subst e
        simp at h1
      · rw [h3]
        exact .inr ⟨⟨m, rfl⟩, fun h => h4 ⟨by simpa using h.2.2.2.1, h.2.2.2.2⟩⟩

/-- Two settings with 17 options: the combinations (0, 0) and (15, 1) have the same case. -/
theorem injective_violated : let f := (Sample.result Sample.manyCases).2
    (∃ b', Sample.manyCases.build Sample.env = .ok (b', f)) ∧
    Sample.manyCases.switches = [[0, 1]] ∧ options Sample.manyCases 0 = 17 ∧
    options Sample.manyCases 1 = 17 ∧
    f.evaluateSwitch 0 [0, 0] = .ok 0 ∧ f.evaluateSwitch 0 [15, 1] = .ok 0 := by
  refine ⟨⟨(Sample.result Sample.manyCases).1, ?_⟩, ?_⟩ <;> decide +kernel

/-- And the cases from 256 on are not reached by any settings, although 289 groups are required. -/
theorem surjective_violated :
    Sample.manyCases.computeNumSwitchCases 0 = .ok 289 ∧
    ∀ settings c, 256 ≤ c → (Sample.result Sample.manyCases).2.evaluateSwitch 0 settings ≠ .ok c := by
  refine ⟨by decide +kernel, fun settings c hc h => ?_⟩
  have := evaluateSwitch_lt h
  omega

/-- The example with one setting of two options. -/
example : SwitchOk Sample.mapped [0] ∧ Sample.mapped.switches = [[0]] ∧
    combinations ([0].map (options Sample.mapped)) = 2 := by
  refine ⟨⟨?_, ?_, ?_, ?_⟩, ?_⟩ <;> decide +kernel

example : mixedRadix [(3, 2), (4, 1), (5, 3)] = 48 ∧ combinations [3, 4, 5] = 60 := by decide

end C23
