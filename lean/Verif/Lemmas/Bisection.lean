import Verif.Spec.Bisection
import Verif.Lemmas.NameTable
import Verif.Lemmas.GlyphIndex

/-! # Exactly which names are found -/

namespace FontModel.Font
open Go Spec

theorem nameSearch_iff {f : Font} {names : List Bytes} {ids : List Nat} (ht : NameTable f names ids)
    (x : Bytes) {p : Nat} : ∀ fuel lo hi, lo ≤ hi → hi < names.length → hi - lo < fuel → lo ≤ p → p ≤ hi →
    ∃ i, f.nameSearch x names.length fuel lo hi = .ok i ∧ lo ≤ i ∧ i ≤ hi ∧
      (i = p ↔ ∀ m, Probed p lo hi m → (m < p ↔ bytesSmallerThanStr (names.getD m []) x = true)) := by
  intro fuel
  induction fuel with
  | zero => intro lo hi _ _ h; omega
  | succ fuel ih =>
    intro lo hi h1 h2 h3 p1 p2
    rw [nameSearch]
    by_cases hlt : lo < hi
    · rw [if_pos hlt]
      have hmid : (lo + hi) >>> 1 = (lo + hi) / 2 := by rw [Nat.shiftRight_eq_div_pow]
      simp only [hmid]
      have hm : (lo + hi) / 2 < names.length := by omega
      have hd : names.getD ((lo + hi) / 2) [] = names[(lo + hi) / 2] := by
        rw [List.getD_eq_getElem?_getD, List.getElem?_eq_getElem hm, Option.getD_some]
      rw [ht.name _ hm, Res.ok_bind]
      cases hs : bytesSmallerThanStr names[(lo + hi) / 2] x
      · rw [if_neg (by simp)]
        by_cases hp : p ≤ (lo + hi) / 2
        · obtain ⟨i, e1, e2, e3, e4⟩ := ih lo ((lo + hi) / 2) (by omega) hm (by omega) p1 hp
          refine ⟨i, e1, e2, by omega, e4.trans ⟨fun h m hP => ?_, fun h m hP => h m (.down hlt hp hP)⟩⟩
          cases hP with
          | mid => rw [hd, hs]; simp; omega
          | up _ h5 _ => omega
          | down _ _ h6 => exact h m h6
        · obtain ⟨i, e1, e2, e3, _⟩ := nameSearch_spec ht x fuel lo ((lo + hi) / 2) (by omega) hm (by omega)
          refine ⟨i, e1, e2, by omega, ⟨fun h => by omega, fun h => ?_⟩⟩
          have := (h _ (.mid hlt)).1 (by omega)
          rw [hd, hs] at this; cases this
      · rw [if_pos rfl]
        by_cases hp : p ≤ (lo + hi) / 2
        · obtain ⟨i, e1, e2, e3, _⟩ := nameSearch_spec ht x fuel ((lo + hi) / 2 + 1) hi (by omega) h2 (by omega)
          refine ⟨i, e1, by omega, e3, ⟨fun h => by omega, fun h => ?_⟩⟩
          have := (h _ (.mid hlt)).2 (by rw [hd, hs])
          omega
        · obtain ⟨i, e1, e2, e3, e4⟩ := ih ((lo + hi) / 2 + 1) hi (by omega) h2 (by omega) (by omega) p2
          refine ⟨i, e1, by omega, e3, e4.trans ⟨fun h m hP => ?_, fun h m hP => h m (.up hlt (by omega) hP)⟩⟩
          cases hP with
          | mid => rw [hd, hs]; simp; omega
          | up _ _ h6 => exact h m h6
          | down _ h5 _ => omega
    · rw [if_neg hlt]
      refine ⟨lo, rfl, by omega, by omega, ⟨fun _ m hP => ?_, fun _ => by omega⟩⟩
      cases hP <;> omega

theorem getD_at {names : List Bytes} {p : Nat} (hp : p < names.length) : names.getD p [] = names[p] := by
  rw [List.getD_eq_getElem?_getD, List.getElem?_eq_getElem hp, Option.getD_some]

/-- The name at `p` is found if the comparisons lead there, else it is missed. -/
theorem findIndexByName_iff {f : Font} {names : List Bytes} {ids : List Nat} (ht : NameTable f names ids)
    (hn : names.Nodup) {p : Nat} (hp : p < names.length) :
    ∃ hp' : p < ids.length, (Guided names p → f.findIndexByName names[p] = .ok ids[p]) ∧
      (¬ Guided names p → f.findIndexByName names[p] = .ok glyphMissing) := by
  have hp' : p < ids.length := by rw [ht.same]; exact hp
  refine ⟨hp', ?_⟩
  obtain ⟨i, e1, e2, e3, e4⟩ := nameSearch_iff ht names[p] (p := p) (names.length + 1) 0 (names.length - 1)
    (by omega) (by omega) (by omega) (by omega) (by omega)
  have hg : i = p ↔ Guided names p := by
    rw [e4]; unfold Guided
    simp only [smaller_iff, getD_at hp]
  have hi : i < names.length := by omega
  unfold findIndexByName
  rw [ht.count, Res.ok_bind, if_neg (by omega), e1, Res.ok_bind, if_neg (by omega), ht.name i hi, Res.ok_bind]
  refine ⟨fun h => ?_, fun h => ?_⟩
  · have := hg.2 h
    subst this
    rw [if_pos (by simp [bytesEqStr]), shl1]
    exact ht.id i hp'
  · have hne : i ≠ p := fun e => h (hg.1 e)
    rw [if_neg]; · rfl
    simp only [bytesEqStr, beq_iff_eq]
    exact fun e => hne (BuilderModel.nodup_inj hn (hi := hi) (hj := hp) e)

/-- With names of one length the comparisons lead to the first. -/
theorem guided_same {names : List Bytes} {L : Nat} (hL : ∀ x ∈ names, x.length = L) {p : Nat}
    (hp : p < names.length) : Guided names p ↔ p = 0 := by
  have hlen : ∀ m, m < names.length → (names.getD m []).length = L := fun m hm => by
    rw [getD_at hm]; exact hL _ (List.getElem_mem hm)
  constructor
  · intro h
    apply Classical.byContradiction
    intro h0
    have key : ∀ n lo hi, hi - lo = n → lo < p → p ≤ hi → ∃ m, Probed p lo hi m ∧ m < p := by
      intro n
      induction n using Nat.strongRecOn with
      | ind n ih =>
        intro lo hi hn h1 h2
        by_cases hm : (lo + hi) / 2 < p
        · exact ⟨_, .mid (by omega), hm⟩
        · obtain ⟨m, h3, h4⟩ := ih ((lo + hi) / 2 - lo) (by omega) lo ((lo + hi) / 2) rfl h1 (by omega)
          exact ⟨m, .down (by omega) (by omega) h3, h4⟩
    obtain ⟨m, h1, h2⟩ := key _ 0 (names.length - 1) rfl (by omega) (by omega)
    have := ((h m h1).1 h2).2
    rw [hlen m (by omega), hlen p hp] at this
    exact this rfl
  · rintro rfl m hP
    have hb : ∀ lo hi m, Probed 0 lo hi m → m ≤ hi := by
      intro lo hi m h
      induction h with
      | mid => omega
      | up _ _ _ ih => omega
      | down _ _ _ ih => omega
    have := hb _ _ _ hP
    rw [hlen m (by omega), hlen 0 hp]
    simp
end FontModel.Font
