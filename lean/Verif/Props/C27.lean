import Verif.Lemmas.SettingsCache
import Verif.Spec.SampleCaches

/-!
# C27: the settings cache never returns stale values

Every history of operations gives exactly what `Spec.Settings` gives: settings read back as last
written, a write forgets all cases and conditions, and what was stored since reads back.
-/

namespace C27
open Go Spec Spec.Settings FontModel CacheModel

/-- For every font and every history, the code and the specification show the same, also panics. -/
theorem refines (f : Font) (c : SettingsCache) (h : SettingsCache.new f = .ok c) :
    ∃ n s k, f.numSettings = .ok n ∧ f.numSwitchTypes = .ok s ∧ f.numConditions = .ok k ∧
      ∀ ops : List Op, opRun c ops =
        run { settings := List.replicate n 0, numSwitches := s, numConditions := k } ops := by
  have h' := id h
  simp only [SettingsCache.new, Res.bind_eq_ok] at h'
  obtain ⟨n, e1, s, e2, k, e3, _⟩ := h'
  obtain ⟨c', q1, q2⟩ := Repr.new e1 e2 e3
  rw [h, Res.ok.injEq] at q1
  subst q1
  exact ⟨n, s, k, e1, e2, e3, fun ops => q2.run ops⟩

/-- The specification never has a case or condition after a write, until one is stored: the last
observation of a history where the only later operations are reads. -/
theorem forgotten (st : State) (k : UInt8) (v : Nat) (hk : k.toNat < st.settings.length) (t i : UInt8) :
    (step st (.set k v)).1 = .affected true true ∧
    (t.toNat < 254 → t.toNat < padded st.numSwitches →
      (step (step st (.set k v)).2 (.getCase t)).1 = .case 0 false) ∧
    (i.toNat < 255 → i.toNat < padded st.numConditions →
      (step (step st (.set k v)).2 (.getCondition i)).1 = .condition false false) ∧
    (step (step st (.set k v)).2 (.get k)).1 = .value v := by
  have e : step st (.set k v) = (.affected true true, { st with
      settings := st.settings.set k.toNat v
      cases := fun _ => none
      conditions := fun _ => none }) := by
    simp only [step, if_pos hk]
  rw [e]
  refine ⟨rfl, ?_, ?_, ?_⟩
  · intro h1 h2
    simp only [step]
    rw [if_neg (by omega), if_pos h2]
  · intro h1 h2
    simp only [step]
    rw [if_neg (by omega), if_pos h2]
  · simp only [step, List.getD_eq_getElem?_getD, List.getElem?_set_self hk, Option.getD_some]

/-- And what was stored reads back, until the next write. -/
theorem remembered (st : State) (t i : UInt8) (v : Nat) (w : Bool) :
    (t.toNat < st.numSwitches → t.toNat < 254 →
      (step (step st (.storeCase t v)).2 (.getCase t)).1 = .case v true) ∧
    (i.toNat < padded st.numConditions → i.toNat < 255 →
      (step (step st (.storeCondition i w)).2 (.getCondition i)).1 = .condition w true) := by
  constructor
  · intro h1 h2
    have h3 : t.toNat < padded st.numSwitches := by simp only [padded]; omega
    simp only [step, if_pos h1]
    rw [if_neg (by omega), if_pos h3]
    simp [put]
  · intro h1 h2
    simp only [step, if_pos h1]
    rw [if_neg (by omega)]
    simp [put]

/-- A history of the code. -/
example : SettingsCache.new Sample.mappedFont = .ok Sample.settings ∧
    opRun Sample.settings [.getCase 0, .storeCase 0 1, .getCase 0, .set 0 1, .getCase 0, .get 0, .slice,
      .getCondition 255, .getCase 254, .set 1 0] =
    [.case 0 false, .unit, .case 1 true, .affected true true, .case 0 false, .value 1, .values [1],
      .condition true true, .case 0 true, .panic] := by
  decide +kernel

end C27
