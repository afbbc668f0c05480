import Verif.Model.Builder

/-! # Go maps -/

namespace BuilderModel.GoMap
variable {K V : Type} [DecidableEq K]

theorem get_set_self : ∀ (m : GoMap K V) (k : K) (v : V), (m.set k v).get k = some v
  | [], k, v => by simp [set, get]
  | (k', v') :: m, k, v => by
    rw [set]
    split
    · simp [get]
    · rename_i h
      rw [get, if_neg h, get_set_self m]

theorem get_set_ne : ∀ (m : GoMap K V) {k : K} (v : V) {k' : K}, k' ≠ k →
    (m.set k v).get k' = m.get k'
  | [], k, v, k', h => by simp [set, get, h.symm]
  | (k1, v1) :: m, k, v, k', h => by
    rw [set]
    split
    · rename_i h1
      rw [get, get, if_neg h.symm, if_neg (by rw [h1]; exact h.symm)]
    · rw [get, get]
      split
      · rfl
      · exact get_set_ne m v h

theorem get_delete_self (m : GoMap K V) (k : K) : (m.delete k).get k = none := by
  induction m with
  | nil => rfl
  | cons e m ih =>
    obtain ⟨k', v⟩ := e
    rw [delete, List.filter_cons]
    split
    · rename_i h
      rw [get, if_neg (by simpa using h)]; exact ih
    · exact ih

theorem get_delete_ne (m : GoMap K V) {k k' : K} (h : k' ≠ k) : (m.delete k).get k' = m.get k' := by
  induction m with
  | nil => rfl
  | cons e m ih =>
    obtain ⟨k1, v⟩ := e
    rw [delete, List.filter_cons]
    split
    · rw [get, get]
      split
      · rfl
      · exact ih
    · rename_i h1
      have h1 : k1 = k := by simpa using h1
      rw [get, if_neg (by rw [h1]; exact h.symm)]; exact ih

theorem get_eq_none {m : GoMap K V} {k : K} : m.get k = none ↔ k ∉ m.keys := by
  induction m with
  | nil => simp [get, keys]
  | cons e m ih =>
    obtain ⟨k', v⟩ := e
    rw [get]
    split
    · rename_i h; subst h; simp [keys]
    · rename_i h
      rw [ih]
      simp only [keys, List.map_cons, List.mem_cons, not_or]
      exact ⟨fun h' => ⟨fun e => h e.symm, h'⟩, fun h' => h'.2⟩

theorem mem_of_get {m : GoMap K V} {k : K} {v : V} (h : m.get k = some v) : (k, v) ∈ m := by
  induction m with
  | nil => simp [get] at h
  | cons e m ih =>
    obtain ⟨k', v'⟩ := e
    rw [get] at h
    split at h
    · rename_i hk
      simp only [Option.some.injEq] at h
      subst hk h; simp
    · exact List.mem_cons_of_mem _ (ih h)

theorem get_of_mem {m : GoMap K V} (hn : m.keys.Nodup) {k : K} {v : V} (h : (k, v) ∈ m) :
    m.get k = some v := by
  induction m with
  | nil => simp at h
  | cons e m ih =>
    obtain ⟨k', v'⟩ := e
    simp only [keys, List.map_cons, List.nodup_cons] at hn
    rw [get]
    rcases List.mem_cons.1 h with h | h
    · cases h; rw [if_pos rfl]
    · have : k' ≠ k := by
        rintro rfl
        exact hn.1 (List.mem_map.2 ⟨_, h, rfl⟩)
      rw [if_neg this]
      exact ih hn.2 h

theorem keys_set (m : GoMap K V) (k : K) (v : V) :
    (m.set k v).keys = if k ∈ m.keys then m.keys else m.keys ++ [k] := by
  induction m with
  | nil => simp [set, keys]
  | cons e m ih =>
    obtain ⟨k', v'⟩ := e
    rw [set]
    split
    · rename_i h; subst h; simp [keys]
    · rename_i h
      simp only [keys, List.map_cons, List.mem_cons] at ih ⊢
      rw [ih]
      by_cases hk : k ∈ List.map (·.1) m
      · simp [hk]
      · have h' : ¬k = k' := fun e => h e.symm
        simp [hk, h']

theorem keys_delete (m : GoMap K V) (k : K) : (m.delete k).keys = m.keys.filter fun x => x ≠ k := by
  simp [delete, keys, List.filter_map, Function.comp_def]

theorem nodup_set {m : GoMap K V} (h : m.keys.Nodup) (k : K) (v : V) : (m.set k v).keys.Nodup := by
  rw [keys_set]
  split
  · exact h
  · rename_i hk
    rw [List.nodup_append]
    exact ⟨h, by simp, by rintro a ha b hb rfl; simp only [List.mem_singleton] at hb; exact hk (hb ▸ ha)⟩

theorem nodup_delete {m : GoMap K V} (h : m.keys.Nodup) (k : K) : (m.delete k).keys.Nodup := by
  rw [keys_delete]; exact h.filter _

end BuilderModel.GoMap
