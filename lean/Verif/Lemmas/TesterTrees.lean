import Verif.Lemmas.TreeRun
import Verif.Lemmas.TesterAcc

/-!
# The trees of a tester while detecting
-/

namespace TesterModel
open Go ScannerModel TreeModel Spec

/-- A tree that was given `u`, and has perhaps stopped before its end. -/
structure TreeAt (F : List Fed) (u : List Nat) (t : Tree) : Prop where
  run : t.scanning = true → At t.states F u t
  stop : t.scanning = false → ∃ u', u' <+: u ∧ At t.states F u' t

theorem TreeAt.best {F : List Fed} {u : List Nat} {t : Tree} (h : TreeAt F u t) : BestFor F u t.best := by
  cases hs : t.scanning with
  | true => exact (h.run hs).best
  | false =>
    obtain ⟨u', ⟨x, hx⟩, ha⟩ := h.stop hs
    rw [← hx]
    exact ha.rest hs

theorem TreeAt.final {F : List Fed} {u : List Nat} {t : Tree} (h : TreeAt F u t) (hs : t.scanning = false)
    (z : List Nat) : BestFor F (u ++ z) t.best := by
  obtain ⟨u', ⟨x, hx⟩, ha⟩ := h.stop hs
  rw [← hx, List.append_assoc]
  exact ha.rest hs

theorem TreeAt.longer {F : List Fed} {u : List Nat} {t : Tree} (h : TreeAt F u t) (hs : t.scanning = false)
    (z : List Nat) : TreeAt F (u ++ z) t := by
  refine ⟨fun h => absurd h (by simp [hs]), fun _ => ?_⟩
  obtain ⟨u', hp, ha⟩ := h.stop hs
  exact ⟨u', hp.trans (List.prefix_append _ _), ha⟩

/-- What the rules of each condition have to be. -/
structure GroupsOk (Fs : Nat → List Fed) : Prop where
  sorted : ∀ c, (Fs c).Pairwise fun a b => a.index ≤ b.index
  path : ∀ c, ∀ f ∈ Fs c, f.path ≠ []

/-- The trees recognise the rules. -/
def Good (Fs : Nat → List Fed) (l : List Inst) : Prop := ∀ t ∈ l, Recognises t.tree.states (Fs t.condition)

/-- The trees were given `u`. -/
def TreesAt (Fs : Nat → List Fed) (u : List Nat) (l : List Inst) : Prop := ∀ t ∈ l, TreeAt (Fs t.condition) u t.tree

/-- What detection does not change in a tree. -/
def sig (t : Inst) : Nat × List State × Bool × Bool × Bool := (t.condition, t.tree.states, t.cached, t.value, t.resync)

/-- The trees of the two lists only differ by the state of detection. -/
def Same (l l' : List Inst) : Prop := l'.map sig = l.map sig

theorem Same.mem {l l' : List Inst} (h : Same l l') {t : Inst} (ht : t ∈ l') : ∃ t' ∈ l, sig t' = sig t := by
  have : sig t ∈ l'.map sig := List.mem_map.2 ⟨t, ht, rfl⟩
  rw [h] at this
  exact List.mem_map.1 this

theorem Same.symm {l l' : List Inst} (h : Same l l') : Same l' l := Eq.symm h

theorem Same.good {Fs : Nat → List Fed} {l l' : List Inst} (h : Same l l') (hg : Good Fs l) : Good Fs l' := by
  intro t ht
  obtain ⟨t', ht', he⟩ := h.mem ht
  simp only [sig, Prod.mk.injEq] at he
  have := hg t' ht'
  rw [he.1, he.2.1] at this
  exact this

theorem Same.trans {a b c : List Inst} (h : Same a b) (h' : Same b c) : Same a c := Eq.trans h' h

theorem Same.conds {l l' : List Inst} (h : Same l l') : l'.map (·.condition) = l.map (·.condition) := by
  have := congrArg (List.map Prod.fst) h
  simpa [Function.comp_def, sig] using this

theorem restartAll_ok {Fs : Nat → List Fed} (hf : GroupsOk Fs) : ∀ {l : List Inst},
    ∃ l', Tester.restartAll l = .ok l' ∧ Same l l' ∧ TreesAt Fs [] l' ∧ (∀ t ∈ l', t.tree.scanning = true)
  | [] => ⟨[], rfl, rfl, by simp [TreesAt], by simp⟩
  | t :: l => by
    obtain ⟨l', h1, h2, h3, h4⟩ := restartAll_ok hf (l := l)
    have key : ∃ t', Tester.restartInst t = .ok t' ∧ sig t' = sig t ∧
        TreeAt (Fs t'.condition) [] t'.tree ∧ t'.tree.scanning = true := by
      unfold Tester.restartInst
      have hb : ∃ t1, (if t.tree.scanning = true then t.tree.breakSeq else .ok t.tree) = .ok t1 ∧
          t1.states = t.tree.states ∧ t1.scanning = false := by
        by_cases hs : t.tree.scanning = true
        · rw [if_pos hs]
          unfold Tree.breakSeq
          rw [if_neg (by simp [hs])]
          exact ⟨_, rfl, rfl, rfl⟩
        · rw [if_neg hs]
          exact ⟨_, rfl, rfl, by simpa using hs⟩
      obtain ⟨t1, hb1, hb2, hb3⟩ := hb
      rw [hb1, Res.ok_bind]
      obtain ⟨t2, h5, h6, h7⟩ := beginSeq_ok (F := Fs t.condition) hb2 (hf.path _) hb3
      rw [h5, Res.ok_bind]
      refine ⟨_, rfl, by simp only [sig, h6.states], ⟨fun _ => ?_, fun h => ?_⟩, h7⟩
      · simp only [h6.states]
        exact h6
      · exact absurd h (by simp [h7])
    obtain ⟨t', h5, h6, h7, h8⟩ := key
    refine ⟨t' :: l', ?_, ?_, ?_, ?_⟩
    · rw [Tester.restartAll, h5, Res.ok_bind, h1]
      rfl
    · unfold Same at h2 ⊢
      rw [List.map_cons, List.map_cons, h6, h2]
    · intro x hx
      rcases List.mem_cons.1 hx with rfl | hx
      · exact h7
      · exact h3 x hx
    · intro x hx
      rcases List.mem_cons.1 hx with rfl | hx
      · exact h8
      · exact h4 x hx

theorem feedTrees_ok {Fs : Nat → List Fed} (hf : GroupsOk Fs) {u : List Nat} (g : Nat) : ∀ {l : List Inst},
    Good Fs l → TreesAt Fs u l → ∃ l' r, Tester.feedTrees g l = .ok (l', r) ∧ Same l l' ∧ TreesAt Fs (u ++ [g]) l' ∧
      (r = true ↔ ∃ t ∈ l', t.tree.scanning = true)
  | [], _, _ => ⟨[], false, rfl, rfl, by simp [TreesAt], by simp⟩
  | t :: l, hg, ha => by
    obtain ⟨l', r, h1, h2, h3, h4⟩ := feedTrees_ok hf g (l := l) (fun x hx => hg x (List.mem_cons_of_mem _ hx))
      (fun x hx => ha x (List.mem_cons_of_mem _ hx))
    have hat := ha t (List.mem_cons_self ..)
    unfold Tester.feedTrees
    cases hs : t.tree.scanning with
    | false =>
      rw [if_pos (by rfl), h1, Res.ok_bind]
      refine ⟨_, _, rfl, ?_, ?_, ?_⟩
      · unfold Same at h2 ⊢
        rw [List.map_cons, List.map_cons, h2]
      · intro x hx
        rcases List.mem_cons.1 hx with rfl | hx
        · exact hat.longer hs _
        · exact h3 x hx
      · rw [h4]
        constructor
        · rintro ⟨x, hx, h⟩
          exact ⟨x, List.mem_cons_of_mem _ hx, h⟩
        · rintro ⟨x, hx, h⟩
          rcases List.mem_cons.1 hx with rfl | hx
          · rw [hs] at h; cases h
          · exact ⟨x, hx, h⟩
    | true =>
      obtain ⟨t', h5, h6⟩ := treeFeed_ok (hg t (List.mem_cons_self ..)) (hf.sorted _) (hat.run hs) hs g
      rw [if_neg (by simp), h5, Res.ok_bind, h1, Res.ok_bind]
      refine ⟨_, _, rfl, ?_, ?_, ?_⟩
      · unfold Same at h2 ⊢
        rw [List.map_cons, List.map_cons, h2]
        simp only [sig, h6.states]
      · intro x hx
        rcases List.mem_cons.1 hx with rfl | hx
        · refine ⟨fun _ => ?_, fun _ => ⟨_, List.prefix_refl _, ?_⟩⟩
          · simp only [h6.states]; exact h6
          · simp only [h6.states]; exact h6
        · exact h3 x hx
      · rw [Bool.or_eq_true, h4]
        constructor
        · rintro (h | ⟨x, hx, h⟩)
          · exact ⟨_, List.mem_cons_self .., h⟩
          · exact ⟨x, List.mem_cons_of_mem _ hx, h⟩
        · rintro ⟨x, hx, h⟩
          rcases List.mem_cons.1 hx with rfl | hx
          · exact Or.inl h
          · exact Or.inr ⟨x, hx, h⟩

theorem fedH_zero {F : List Fed} (h : ∀ f ∈ F, f.head = 0) (u : List Nat) : (fedH F u).2 = 0 := by
  unfold fedH
  suffices ∀ (F : List Fed) (b : Nat × Nat), (∀ f ∈ F, f.head = 0) → b.2 = 0 →
      (F.foldl (fun b f => if u <+: f.path ∧ u ≠ f.path then headUpd f.head b else b) b).2 = 0 from this F _ h rfl
  intro F
  induction F with
  | nil => intro b _ hb; exact hb
  | cons f F ih =>
    intro b hF hb
    rw [List.foldl_cons]
    refine ih _ (fun g hg => hF g (List.mem_cons_of_mem _ hg)) ?_
    split
    · simp [headUpd, hF f (List.mem_cons_self ..), hb]
    · exact hb

/-- When no rule has a head, no tree goes on with elements that have already been reported. -/
theorem feedTreesHead_stop {Fs : Nat → List Fed} (hf : GroupsOk Fs) (hz : ∀ c, ∀ f ∈ Fs c, f.head = 0) {n : Nat}
    (hn : 0 < n) (g : Nat) : ∀ {l : List Inst}, Good Fs l → TreesAt Fs [] l → (∀ t ∈ l, t.tree.scanning = true) →
    ∃ l', Tester.feedTreesHead g n l = .ok (l', false) ∧ Same l l' ∧ ∀ t ∈ l', t.tree.best = 255
  | [], _, _, _ => ⟨[], rfl, rfl, by simp⟩
  | t :: l, hg, ha, hs => by
    obtain ⟨l', h1, h2, h3⟩ := feedTreesHead_stop hf hz hn g (l := l) (fun x hx => hg x (List.mem_cons_of_mem _ hx))
      (fun x hx => ha x (List.mem_cons_of_mem _ hx)) (fun x hx => hs x (List.mem_cons_of_mem _ hx))
    have hat := (ha t (List.mem_cons_self ..)).run (hs t (List.mem_cons_self ..))
    have hsc := hs t (List.mem_cons_self ..)
    have hgd := hg t (List.mem_cons_self ..)
    have hw := hat.index hsc
    have hlt := hgd.bound _ _ hw
    have hh := hgd.heads _ _ _ hw (List.getElem?_eq_getElem hlt)
    have h0 := fedH_zero (hz t.condition) []
    rw [← hh] at h0
    simp only at h0
    have hfd : t.tree.feedHead g n = .ok { t.tree with scanning := false } := by
      unfold Tree.feedHead
      rw [if_neg (by simp [hsc]), idx_eq_ok.2 (List.getElem?_eq_getElem hlt), Res.ok_bind, if_neg]
      · rfl
      · unfold State.satisfiesHead
        simp only [Bool.and_eq_true, decide_eq_true_eq]
        omega
    unfold Tester.feedTreesHead
    rw [if_neg (by simp [hsc]), hfd, Res.ok_bind, h1, Res.ok_bind]
    refine ⟨_, rfl, ?_, ?_⟩
    · unfold Same at h2 ⊢
      rw [List.map_cons, List.map_cons, h2]
      rfl
    · intro x hx
      rcases List.mem_cons.1 hx with rfl | hx
      · rcases hat.best with ⟨h, _⟩ | ⟨y, hy, _, hp, _⟩
        · exact h
        · obtain ⟨f, hf', rfl⟩ := List.mem_map.1 hy
          exact absurd (List.prefix_nil.1 hp) (hf.path _ f hf')
      · exact h3 x hx

theorem bestMatch_none : ∀ {l : List Inst}, (∀ t ∈ l, t.tree.best = 255) → Tester.bestMatch l ruleNone = ruleNone
  | [], _ => rfl
  | t :: l, h => by
    unfold Tester.bestMatch
    rw [h t (List.mem_cons_self ..), if_neg (by decide)]
    exact bestMatch_none fun x hx => h x (List.mem_cons_of_mem _ hx)

theorem bestMatch_le : ∀ {l : List Inst} {b : Nat}, Tester.bestMatch l b ≤ b ∧ ∀ t ∈ l, Tester.bestMatch l b ≤ t.tree.best
  | [], b => ⟨Nat.le_refl _, by simp⟩
  | t :: l, b => by
    unfold Tester.bestMatch
    obtain ⟨h1, h2⟩ := bestMatch_le (l := l) (b := if t.tree.best < b then t.tree.best else b)
    refine ⟨?_, ?_⟩
    · refine Nat.le_trans h1 ?_
      split <;> omega
    · intro x hx
      rcases List.mem_cons.1 hx with rfl | hx
      · refine Nat.le_trans h1 ?_
        split <;> omega
      · exact h2 x hx

theorem bestMatch_mem : ∀ {l : List Inst} {b : Nat}, Tester.bestMatch l b = b ∨ ∃ t ∈ l, t.tree.best = Tester.bestMatch l b
  | [], b => Or.inl rfl
  | t :: l, b => by
    unfold Tester.bestMatch
    rcases bestMatch_mem (l := l) (b := if t.tree.best < b then t.tree.best else b) with h | ⟨x, hx, h⟩
    · rw [h]
      split
      · exact Or.inr ⟨t, List.mem_cons_self .., rfl⟩
      · exact Or.inl rfl
    · exact Or.inr ⟨x, List.mem_cons_of_mem _ hx, h⟩

end TesterModel
