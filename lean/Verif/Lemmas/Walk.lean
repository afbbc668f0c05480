import Verif.Model.DecisionTree
import Mathlib.Tactic.SplitIfs

/-!
# Paths through the states of a decision tree

What a list of states recognises, as functions of the input read so far: the state reached (`walk`) and the
rule matched by one more element (`lookAt`). Then how they change when the compiler links a state or sets a
rule, for trees in which every state is reached by one path.
-/

namespace TreeModel
open Go

/-- The transition for an element. -/
def trig (l : List Transition) (g : Nat) : Option Transition :=
  l.find? fun t => decide (t.first ≤ g ∧ g ≤ t.last)

def step (S : List State) (s g : Nat) : Option Transition := S[s]?.bind fun st => trig st.trans g

def nextOf (t : Transition) : Option Nat := if t.next = stateNone then none else some t.next
def ruleOf (t : Transition) : Option Nat := if t.rule = ruleNone then none else some t.rule

def next1 (S : List State) (s g : Nat) : Option Nat := (step S s g).bind nextOf
def rule1 (S : List State) (s g : Nat) : Option Nat := (step S s g).bind ruleOf

/-- The state reached from the root. -/
def walk (S : List State) (u : List Nat) : Option Nat :=
  u.foldl (fun o h => o.bind fun s => next1 S s h) (some 0)

/-- The rule matched after `u` by the element `h`. -/
def lookAt (S : List State) (u : List Nat) (h : Nat) : Option Nat := (walk S u).bind fun s => rule1 S s h

@[simp] theorem walk_nil (S : List State) : walk S [] = some 0 := rfl

theorem walk_snoc (S : List State) (u : List Nat) (h : Nat) :
    walk S (u ++ [h]) = (walk S u).bind fun s => next1 S s h := by
  simp [walk, List.foldl_append]

/-- Every state is reached by at most one path. -/
def Inj (S : List State) : Prop := ∀ u v s, walk S u = some s → walk S v = some s → u = v

/-- Induction on lists from the right. -/
theorem snoc_induction {α : Type} {P : List α → Prop} (nil : P []) (snoc : ∀ l a, P l → P (l ++ [a])) :
    ∀ l, P l := by
  intro l
  generalize hn : l.length = n
  induction n generalizing l with
  | zero => rw [List.length_eq_zero_iff.1 hn]; exact nil
  | succ n ih =>
    have hne : l ≠ [] := by rintro rfl; simp at hn
    rw [← List.dropLast_concat_getLast hne]
    exact snoc _ _ (ih _ (by simp [hn]))

/-- The change made by linking: after `p`, the element `g` leads to `n`, a copy of where it led before. -/
structure Relinked (S S' : List State) (p : List Nat) (cur g n : Nat) : Prop where
  at_cur : walk S p = some cur
  fresh : ∀ u, walk S u ≠ some n
  next_cur : next1 S' cur g = some n
  rule_cur : rule1 S' cur g = rule1 S cur g
  other_cur : ∀ h, h ≠ g → step S' cur h = step S cur h
  other : ∀ u s, walk S u = some s → s ≠ cur → ∀ h, step S' s h = step S s h
  copy : ∀ h, step S' n h = (next1 S cur g).bind fun s => step S s h

theorem Relinked.walk {S S' : List State} {p : List Nat} {cur g n : Nat} (h : Relinked S S' p cur g n)
    (hi : Inj S) (u : List Nat) : walk S' u = if u = p ++ [g] then some n else TreeModel.walk S u := by
  induction u using snoc_induction with
  | nil => rw [if_neg (by simp)]; rfl
  | snoc v x ih =>
    rw [walk_snoc, ih]
    by_cases hv : v = p ++ [g]
    · subst hv
      rw [if_pos rfl, if_neg (by intro hh; have := congrArg List.length hh; simp at this)]
      rw [walk_snoc, walk_snoc, h.at_cur, Option.bind_some, Option.bind_some, next1, h.copy]
      cases next1 S cur g <;> rfl
    · rw [if_neg hv]
      cases hw : TreeModel.walk S v with
      | none =>
        rw [if_neg, walk_snoc, hw]
        · rfl
        intro heq
        have := List.append_inj' heq rfl
        rw [this.1, h.at_cur] at hw
        cases hw
      | some s =>
        rw [Option.bind_some]
        by_cases hs : s = cur
        · subst hs
          have hvp : v = p := hi _ _ _ hw h.at_cur
          subst hvp
          by_cases hx : x = g
          · subst hx
            rw [if_pos rfl, h.next_cur]
          · rw [if_neg (by simpa using hx), walk_snoc, hw, Option.bind_some, next1, next1, h.other_cur x hx]
        · rw [if_neg, walk_snoc, hw, Option.bind_some, next1, next1, h.other v s hw hs]
          intro heq
          have := List.append_inj' heq rfl
          rw [this.1, h.at_cur] at hw
          exact hs (by simpa using hw.symm)

theorem Relinked.lookAt {S S' : List State} {p : List Nat} {cur g n : Nat} (h : Relinked S S' p cur g n)
    (hi : Inj S) (u : List Nat) (x : Nat) : lookAt S' u x = TreeModel.lookAt S u x := by
  unfold TreeModel.lookAt
  rw [h.walk hi]
  by_cases hu : u = p ++ [g]
  · subst hu
    rw [if_pos rfl, walk_snoc, h.at_cur]
    simp only [Option.bind_some, rule1]
    rw [h.copy]
    cases next1 S cur g <;> simp [rule1]
  · rw [if_neg hu]
    cases hw : TreeModel.walk S u with
    | none => rfl
    | some s =>
      simp only [Option.bind_some]
      by_cases hs : s = cur
      · subst hs
        by_cases hx : x = g
        · rw [hx, h.rule_cur]
        · rw [rule1, rule1, h.other_cur x hx]
      · rw [rule1, rule1, h.other u s hw hs]

theorem Relinked.inj {S S' : List State} {p : List Nat} {cur g n : Nat} (h : Relinked S S' p cur g n)
    (hi : Inj S) : Inj S' := by
  intro u v s hu hv
  rw [h.walk hi] at hu hv
  split at hu
  · rename_i h1
    split at hv
    · rename_i h2; rw [h1, h2]
    · cases hu; exact absurd hv (h.fresh _)
  · split at hv
    · cases hv; exact absurd hu (h.fresh _)
    · exact hi _ _ _ hu hv

/-- The change made by setting a rule: after `p`, the element `g` matches `r` unless it matched something. -/
structure Marked (S S' : List State) (cur g r : Nat) : Prop where
  next : ∀ u s, walk S u = some s → ∀ h, next1 S' s h = next1 S s h
  rule_cur : rule1 S' cur g = (rule1 S cur g).or (some r)
  other_cur : ∀ h, h ≠ g → rule1 S' cur h = rule1 S cur h
  other : ∀ u s, walk S u = some s → s ≠ cur → ∀ h, rule1 S' s h = rule1 S s h

theorem walk_congr {S S' : List State} (h : ∀ u s, walk S u = some s → ∀ h, next1 S' s h = next1 S s h)
    (u : List Nat) : walk S' u = walk S u := by
  induction u using snoc_induction with
  | nil => rfl
  | snoc v x ih =>
    rw [walk_snoc, walk_snoc, ih]
    cases hw : walk S v with
    | none => rfl
    | some s => rw [Option.bind_some, Option.bind_some, h v s hw]

theorem Marked.walk {S S' : List State} {cur g r : Nat} (h : Marked S S' cur g r) (u : List Nat) :
    walk S' u = TreeModel.walk S u := walk_congr h.next u

theorem Marked.lookAt {S S' : List State} {p : List Nat} {cur g r : Nat} (h : Marked S S' cur g r) (hi : Inj S)
    (hp : TreeModel.walk S p = some cur) (u : List Nat) (x : Nat) : lookAt S' u x =
      if u = p ∧ x = g then (TreeModel.lookAt S u x).or (some r) else TreeModel.lookAt S u x := by
  unfold TreeModel.lookAt
  rw [h.walk]
  by_cases hu : u = p
  · subst hu
    rw [hp]
    by_cases hx : x = g
    · rw [if_pos ⟨rfl, hx⟩, hx, Option.bind_some, Option.bind_some, h.rule_cur]
    · rw [Option.bind_some, Option.bind_some]
      rw [if_neg (fun hh => hx hh.2), h.other_cur x hx]
  · rw [if_neg (fun hh => hu hh.1)]
    cases hw : TreeModel.walk S u with
    | none => rfl
    | some s =>
      simp only [Option.bind_some]
      by_cases hs : s = cur
      · subst hs; exact absurd (hi _ _ _ hw hp) hu
      · rw [h.other u s hw hs]

theorem Inj.congr {S S' : List State} (hi : Inj S) (h : ∀ u, walk S' u = walk S u) : Inj S' := by
  intro u v s hu hv
  rw [h] at hu hv
  exact hi _ _ _ hu hv

end TreeModel
