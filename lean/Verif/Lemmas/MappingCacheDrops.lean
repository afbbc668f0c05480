import Verif.Lemmas.MappingCache

/-! # Many drops -/

namespace CacheModel
open Go FontModel Spec

theorem drops_many (n : Nat) (ops : List Lookup.Op) :
    Lookup.drops (List.replicate n .drop ++ ops) = n + Lookup.drops ops := by
  induction n with
  | zero => simp
  | succ n ih => rw [List.replicate_succ, List.cons_append, Lookup.drops, ih]; omega

theorem codeRun_many (n : Nat) (s : SettingsCache) (ops : List Lookup.Op) : ∀ m : MappingCache,
    m.drop < 4294967296 → Lookup.codeRun m s (List.replicate n .drop ++ ops) =
      List.replicate n .unit ++ Lookup.codeRun { m with drop := (m.drop + n) % 4294967296 } s ops := by
  induction n with
  | zero =>
    intro m hm
    simp only [List.replicate_zero, List.nil_append, Nat.add_zero, Nat.mod_eq_of_lt hm]
  | succ n ih =>
    intro m hm
    rw [List.replicate_succ, List.cons_append, Lookup.codeRun]
    simp only [Lookup.codeStep]
    rw [ih _ (by simp only [MappingCache.dropAll, u32]; omega), List.replicate_succ, List.cons_append]
    simp only [MappingCache.dropAll, u32]
    rw [Nat.mod_add_mod, show m.drop + 1 + n = m.drop + (n + 1) by omega]

theorem run_many (n : Nat) (f : Font) (st : List Nat) (ops : List Lookup.Op) :
    Lookup.run f st (List.replicate n .drop ++ ops) = List.replicate n .unit ++ Lookup.run f st ops := by
  induction n with
  | zero => rfl
  | succ n ih =>
    rw [List.replicate_succ, List.cons_append, Lookup.run]
    simp only [Lookup.step]
    rw [ih, List.replicate_succ, List.cons_append]

theorem codeRun_cons (m : MappingCache) (s : SettingsCache) (op : Lookup.Op) (ops : List Lookup.Op)
    (h : (Lookup.codeStep m s op).1 ≠ .panic) :
    Lookup.codeRun m s (op :: ops) = (Lookup.codeStep m s op).1 ::
      Lookup.codeRun (Lookup.codeStep m s op).2.1 (Lookup.codeStep m s op).2.2 ops := by
  rw [Lookup.codeRun]
  revert h
  generalize Lookup.codeStep m s op = x
  obtain ⟨o, m', s'⟩ := x
  intro h
  cases o <;> first | rfl | exact absurd rfl h

theorem run_cons (f : Font) (st : List Nat) (op : Lookup.Op) (ops : List Lookup.Op)
    (h : (Lookup.step f st op).1 ≠ .panic) :
    Lookup.run f st (op :: ops) = (Lookup.step f st op).1 ::
      Lookup.run (Lookup.step f st op).2.1 (Lookup.step f st op).2.2 ops := by
  rw [Lookup.run]
  revert h
  generalize Lookup.step f st op = x
  obtain ⟨o, f', s'⟩ := x
  intro h
  cases o <;> first | rfl | exact absurd rfl h

/-- After two operations and so many drops that the counter is `d`. -/
theorem stale {m : MappingCache} {s : SettingsCache} {f : Font} {st : List Nat} {op1 op2 op : Lookup.Op}
    {n d : Nat}
    (h1 : (Lookup.codeStep m s op1).1 ≠ .panic)
    (h2 : (Lookup.codeStep (Lookup.codeStep m s op1).2.1 (Lookup.codeStep m s op1).2.2 op2).1 ≠ .panic)
    (h3 : (Lookup.step f st op1).1 ≠ .panic)
    (h4 : (Lookup.step (Lookup.step f st op1).2.1 (Lookup.step f st op1).2.2 op2).1 ≠ .panic)
    (hd : (Lookup.codeState m s [op1, op2]).1.drop < 4294967296)
    (hn : ((Lookup.codeState m s [op1, op2]).1.drop + n) % 4294967296 = d)
    (he : Lookup.codeRun { (Lookup.codeState m s [op1, op2]).1 with drop := d }
        (Lookup.codeState m s [op1, op2]).2 [op] ≠
      Lookup.run (Lookup.step (Lookup.step f st op1).2.1 (Lookup.step f st op1).2.2 op2).2.1
        (Lookup.step (Lookup.step f st op1).2.1 (Lookup.step f st op1).2.2 op2).2.2 [op]) :
    Lookup.codeRun m s (op1 :: op2 :: (List.replicate n .drop ++ [op])) ≠
      Lookup.run f st (op1 :: op2 :: (List.replicate n .drop ++ [op])) := by
  rw [codeRun_cons _ _ _ _ h1, codeRun_cons _ _ _ _ h2, run_cons _ _ _ _ h3, run_cons _ _ _ _ h4]
  intro e
  simp only [List.cons.injEq] at e
  obtain ⟨_, _, e⟩ := e
  apply he
  rw [run_many] at e
  have hs : (Lookup.codeStep (Lookup.codeStep m s op1).2.1 (Lookup.codeStep m s op1).2.2 op2).2 =
      Lookup.codeState m s [op1, op2] := rfl
  rw [hs, codeRun_many _ _ _ _ hd, hn] at e
  exact List.append_cancel_left e

end CacheModel
