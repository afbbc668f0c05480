import Verif.Lemmas.TesterCompile

/-!
# Histories of operations on a tester
-/

namespace TesterModel
open Go Helpers ScannerModel TreeModel FontModel CacheModel Spec Tester

variable {S : Nat → List Nat} {sets : TreeModel.Sets}

section
variable {v : Variant} {word : Nat → Bytes} {em : RuleCode → List Nat} {R : List RuleCode} {f : Font} {C : Nat → Prop} {e : Nat → Bool}
  {P : SettingsCache → Prop}

/-- A tester between two sequences. -/
structure Sane (S : Nat → List Nat) (word : Nat → Bytes) (C : Nat → Prop) (e : Nat → Bool) (R : List RuleCode) (T : Tester) : Prop where
  rules : T.rules = R.map (RuleCode.bytes word)
  unflushed : T.unflushed = 0
  acc : ∃ cap, cap ≤ 255 ∧ Holds T.acc [] cap
  insts : ∀ t ∈ T.trees, t.resync = true ∧ C t.condition ∧ (t.cached = true → t.value = e t.condition)
  sorted : (T.trees.map (·.condition)).Pairwise (· < ·)
  cover : ∀ r ∈ R, ∃ t ∈ T.trees, t.condition = r.condition.toNat
  done : T.recompile = false → ∃ cap, cap ≤ 255 ∧ Base S word R cap [] T

theorem holds_zero : Holds (Circular.Buf.zero : Circular.Buf Nat) [] 0 := holds_of_rep Circular.zero_rep

theorem Sane.fresh : Sane S word C e [] ({} : Tester) := by
  refine ⟨rfl, rfl, ⟨0, by omega, holds_zero⟩, by simp, by simp, by simp, fun _ => ⟨0, by omega, ?_⟩⟩
  exact ⟨rfl, rfl, holds_zero, by simp [Good], by simp, by simp⟩

theorem holds_clear {b : Circular.Buf Nat} {l : List Nat} {cap : Nat} (h : Holds b l cap) :
    Circular.Rep b.clear ⟨[], cap, 0, true⟩ := by
  obtain ⟨fr, r⟩ := h
  refine ⟨r.cap, r.len, r.capLe, rfl, by simp, rfl, Or.inl rfl, ?_, fun _ => rfl, by simp⟩
  rcases Nat.eq_zero_or_pos cap with h | h
  · exact Or.inr ⟨h, rfl⟩
  · exact Or.inl h

theorem recompileAll_ok (hR : RulesOk v word R) (hsum : Compiles sets S v word R)
    (hP : ∀ s, P s → ∀ c, C c → ∃ s', testCondition f c s = .ok (s', e c) ∧ P s') {mv : Nat → Bool}
    {junk : List Nat} (hj : 255 ≤ junk.length) {T : Tester} {c : Compiler} {s : SettingsCache}
    (h : Sane S word C e R T) (hc : c.compiling = false) (hs : P s) :
    ∃ T' c' s', recompileAll v.kind mv sets f junk T c s = .ok (T', c', s', none) ∧ c'.compiling = false ∧ P s' ∧
      Sane S word C e R T' ∧ T'.recompile = false ∧ T'.operating = T.operating ∧
      (∀ t ∈ T'.trees, t.value = e t.condition) := by
  obtain ⟨l', c', s', h1, h2, h3, h4, h5, h6, h7⟩ := compileTrees_ok hR hsum hP (mv := mv) hc hs
    (fun t ht => ⟨(h.insts t ht).1, (h.insts t ht).2.1⟩)
  obtain ⟨m, m1, _, m2, m3⟩ := maxInLen_ok (n := 0) hR.ok
  have hm := m3 (by omega)
  obtain ⟨cap, hcap, ha⟩ := h.acc
  have hval : ∀ t ∈ l', t.value = e t.condition := by
    intro t ht
    rcases (h7 t ht).2 with h | ⟨t0, h0, h00, h01, h02⟩
    · exact h
    · rw [← h02, ← h00]
      exact (h.insts t0 h0).2.2 h01
  have hcov : ∀ r ∈ R, ∃ t ∈ l', t.condition = r.condition.toNat := by
    intro r hr
    obtain ⟨t, ht, hc⟩ := h.cover r hr
    have : r.condition.toNat ∈ l'.map (·.condition) := by
      rw [h5, List.mem_filter]
      refine ⟨List.mem_map.2 ⟨t, ht, hc⟩, ?_⟩
      obtain ⟨i, hi⟩ := List.getElem?_of_mem hr
      obtain ⟨p, hp⟩ := hsum.1 r hr
      have : (⟨p, blockSize r.head, i⟩ : Fed) ∈ fedGroup S R r.condition.toNat :=
        mem_fedGroup.2 ⟨r, i, p, hi, rfl, hp, rfl⟩
      have := List.ne_nil_of_mem this
      simp [this]
    obtain ⟨t', ht', hc'⟩ := List.mem_map.1 this
    exact ⟨t', ht', hc'⟩
  have hacc : ∃ x b', T.acc.clear.setCapacity m junk = .ok (x, b') ∧ Holds b' [] m := by
    by_cases he : m = cap
    · subst he
      have r := holds_clear ha
      unfold Circular.Buf.setCapacity
      rw [if_pos (by rw [r.cap])]
      exact ⟨_, _, rfl, holds_of_rep r⟩
    · obtain ⟨b', e1, e2⟩ := Circular.setCapacity_rep (holds_clear ha) m junk he (by simp) (by omega)
        (by simp only; omega) (Or.inr (Or.inl rfl))
      exact ⟨_, b', e1, holds_of_rep e2⟩
  obtain ⟨x, b', e1, e2⟩ := hacc
  unfold recompileAll
  rw [← h.rules] at h1 m1
  rw [h1, Res.ok_bind]
  simp only
  rw [if_neg (by simp), m1, Res.ok_bind, e1, Res.ok_bind]
  simp only [Res.pure_eq]
  refine ⟨_, _, _, rfl, h2, h3, ?_, rfl, rfl, hval⟩
  refine ⟨h.rules, h.unflushed, ⟨m, hm, e2⟩, ?_, ?_, hcov, fun _ => ⟨m, hm, ?_⟩⟩
  · exact fun t ht => ⟨(h6 t ht).1, (h6 t ht).2, fun _ => hval t ht⟩
  · simp only
    rw [h5]
    exact h.sorted.filter _
  · exact ⟨h.rules, h.unflushed, e2, h4, hcov, m2⟩

/-! ## Conditions -/

theorem refreshLoop_ok (hP : ∀ s, P s → ∀ c, C c → ∃ s', testCondition f c s = .ok (s', e c) ∧ P s') :
    ∀ {l : List Inst} {s : SettingsCache}, P s → (∀ t ∈ l, C t.condition) →
    ∃ s', refreshLoop f l s = .ok (l.map (fun t => { t with value := e t.condition, cached := true }), s') ∧ P s'
  | [], s, hs, _ => ⟨s, rfl, hs⟩
  | t :: l, s, hs, hc => by
    obtain ⟨s1, h1, h2⟩ := hP s hs _ (hc t List.mem_cons_self)
    obtain ⟨s2, h3, h4⟩ := refreshLoop_ok hP h2 (fun x hx => hc x (List.mem_cons_of_mem _ hx))
    refine ⟨s2, ?_, h4⟩
    rw [refreshLoop, h1, Res.ok_bind]
    simp only
    rw [h3, Res.ok_bind]
    rfl

theorem refresh_ok (hP : ∀ s, P s → ∀ c, C c → ∃ s', testCondition f c s = .ok (s', e c) ∧ P s') {T : Tester}
    {s : SettingsCache} (hs : P s) (h : Sane S word C e R T) :
    ∃ T' s', refreshConditions f T s = .ok (T', s') ∧ P s' ∧ Sane S word C e R T' ∧ T'.operating = T.operating ∧
      (∀ t ∈ T'.trees, t.cached = true ∧ t.value = e t.condition) := by
  obtain ⟨s', h1, h2⟩ := refreshLoop_ok hP hs (fun t ht => (h.insts t ht).2.1)
  unfold refreshConditions
  rw [h1, Res.ok_bind]
  simp only [Res.pure_eq]
  have hc : (T.trees.map (fun t => { t with value := e t.condition, cached := true })).map (·.condition) =
      T.trees.map (·.condition) := by
    rw [List.map_map]
    rfl
  have hm : ∀ t ∈ T.trees.map (fun t => { t with value := e t.condition, cached := true }),
      ∃ t0 ∈ T.trees, t.condition = t0.condition ∧ t.tree = t0.tree ∧ t.resync = t0.resync ∧ t.cached = true ∧
        t.value = e t.condition := by
    intro t ht
    obtain ⟨t0, h0, rfl⟩ := List.mem_map.1 ht
    exact ⟨t0, h0, rfl, rfl, rfl, rfl, rfl⟩
  have hcov : ∀ r ∈ R, ∃ t ∈ T.trees.map (fun t => { t with value := e t.condition, cached := true }),
      t.condition = r.condition.toNat := by
    intro r hr
    obtain ⟨t, ht, hc⟩ := h.cover r hr
    exact ⟨_, List.mem_map.2 ⟨t, ht, rfl⟩, hc⟩
  refine ⟨_, _, rfl, h2, ⟨h.rules, h.unflushed, h.acc, ?_, ?_, hcov, ?_⟩, rfl, ?_⟩
  · intro t ht
    obtain ⟨t0, h0, a, b, c, d, g⟩ := hm t ht
    obtain ⟨k1, k2, _⟩ := h.insts t0 h0
    exact ⟨c.trans k1, by rw [a]; exact k2, fun _ => g⟩
  · simp only
    rw [hc]
    exact h.sorted
  · intro hr
    obtain ⟨cap, hcap, hb⟩ := h.done hr
    refine ⟨cap, hcap, ⟨hb.rules, hb.unflushed, hb.acc, ?_, hcov, hb.fits⟩⟩
    intro t ht
    obtain ⟨t0, h0, a, b, _⟩ := hm t ht
    rw [a, b]
    exact hb.good t0 h0
  · intro t ht
    obtain ⟨t0, h0, a, b, c, d, g⟩ := hm t ht
    exact ⟨d, g⟩

/-! ## Rules -/

theorem searchTree_ok {trees : List Inst} {c : Nat} (hs : (trees.map (·.condition)).Pairwise (· < ·)) :
    ∀ {fuel a b : Nat}, b ≤ trees.length → a ≤ b → b < fuel + a →
    (∀ j t, trees[j]? = some t → j < a → t.condition < c) → (∀ j t, trees[j]? = some t → b ≤ j → c ≤ t.condition) →
    ∃ i, searchTree trees c fuel a b = .ok i ∧ i ≤ trees.length ∧
      (∀ j t, trees[j]? = some t → j < i → t.condition < c) ∧ (∀ j t, trees[j]? = some t → i ≤ j → c ≤ t.condition)
  | 0, a, b, _, hab, hf, _, _ => by omega
  | fuel + 1, a, b, hb, hab, hf, h1, h2 => by
    rw [searchTree]
    by_cases hlt : a < b
    · rw [if_pos hlt]
      have hm : (a + b) >>> 1 = (a + b) / 2 := Nat.shiftRight_eq_div_pow _ 1
      simp only [hm]
      have hml : (a + b) / 2 < trees.length := by omega
      rw [idx_lt hml, Res.ok_bind]
      have mono : ∀ i j (hi : i < trees.length) (hj : j < trees.length), i ≤ j → trees[i].condition ≤ trees[j].condition := by
        intro i j hi hj hij
        rcases Nat.lt_or_eq_of_le hij with h | h
        · have := List.pairwise_iff_getElem.1 hs i j (by simpa using hi) (by simpa using hj) h
          simp only [List.getElem_map] at this
          omega
        · subst h
          omega
      by_cases hc : trees[(a + b) / 2].condition < c
      · rw [if_pos hc]
        refine searchTree_ok hs hb (by omega) (by omega) ?_ h2
        intro j t hj hjl
        obtain ⟨hj1, rfl⟩ := List.getElem?_eq_some_iff.1 hj
        have := mono j ((a + b) / 2) hj1 hml (by omega)
        omega
      · rw [if_neg hc]
        refine searchTree_ok hs (by omega) (by omega) (by omega) h1 ?_
        intro j t hj hjl
        obtain ⟨hj1, rfl⟩ := List.getElem?_eq_some_iff.1 hj
        have := mono ((a + b) / 2) j hml hj1 (by omega)
        omega
    · rw [if_neg hlt]
      exact ⟨a, rfl, by omega, h1, fun j t hj hl => h2 j t hj (by omega)⟩

theorem findTree_ok {trees : List Inst} {c : Nat} (hs : (trees.map (·.condition)).Pairwise (· < ·)) :
    ∃ i b, findTree trees c = .ok (i, b) ∧ (b = true → ∃ t, trees[i]? = some t ∧ t.condition = c) ∧
      (b = false → ∀ t ∈ trees, t.condition ≠ c) := by
  obtain ⟨i, h1, h2, h3, h4⟩ := searchTree_ok (c := c) hs (fuel := trees.length + 1) (a := 0) (b := trees.length)
    (Nat.le_refl _) (by omega) (by omega) (fun j t _ h => absurd h (by omega)) (fun j t hj h => by
      have := (List.getElem?_eq_some_iff.1 hj).1
      omega)
  unfold findTree
  rw [h1, Res.ok_bind]
  by_cases hl : i < trees.length
  · rw [if_pos hl, idx_lt hl, Res.ok_bind]
    refine ⟨_, _, rfl, ?_, ?_⟩
    · intro h
      exact ⟨_, List.getElem?_eq_getElem hl, by simpa using h⟩
    · intro h t ht he
      obtain ⟨j, hj⟩ := List.getElem?_of_mem ht
      have hne : trees[i].condition ≠ c := by simpa using h
      have h5 := h4 i _ (List.getElem?_eq_getElem hl) (Nat.le_refl _)
      rcases Nat.lt_trichotomy j i with hji | hji | hji
      · have := h3 j t hj hji
        omega
      · subst hji
        rw [List.getElem?_eq_getElem hl] at hj
        simp only [Option.some.injEq] at hj
        rw [hj] at hne
        exact hne he
      · obtain ⟨hj1, hj2⟩ := List.getElem?_eq_some_iff.1 hj
        have := List.pairwise_iff_getElem.1 hs i j (by simpa using hl) (by simpa using hj1) hji
        simp only [List.getElem_map, hj2] at this
        omega
  · rw [if_neg hl]
    refine ⟨_, _, rfl, by simp, ?_⟩
    intro _ t ht he
    obtain ⟨j, hj⟩ := List.getElem?_of_mem ht
    have hj1 := (List.getElem?_eq_some_iff.1 hj).1
    have := h3 j t hj (by omega)
    omega

theorem sink_mem {x y : Inst} : ∀ {l : List Inst}, y ∈ sink x l ↔ y = x ∨ y ∈ l
  | [] => by simp [sink]
  | z :: l => by
    rw [sink]
    split
    · exact List.mem_cons
    · rw [List.mem_cons, sink_mem, List.mem_cons]
      constructor
      · rintro (h | h | h)
        · exact Or.inr (Or.inl h)
        · exact Or.inl h
        · exact Or.inr (Or.inr h)
      · rintro (h | h | h)
        · exact Or.inr (Or.inl h)
        · exact Or.inl h
        · exact Or.inr (Or.inr h)

theorem sink_sorted {x : Inst} : ∀ {l : List Inst}, (l.map (·.condition)).Pairwise (· > ·) →
    (∀ t ∈ l, t.condition ≠ x.condition) → ((sink x l).map (·.condition)).Pairwise (· > ·)
  | [], _, _ => by simp [sink]
  | y :: l, h, hx => by
    rw [List.map_cons, List.pairwise_cons] at h
    have hy := hx y List.mem_cons_self
    rw [sink]
    split
    · rename_i hge
      rw [List.map_cons, List.map_cons, List.pairwise_cons]
      refine ⟨?_, List.pairwise_cons.2 h⟩
      intro c hc
      rcases List.mem_cons.1 hc with rfl | hc
      · omega
      · have := h.1 c hc
        omega
    · rename_i hge
      rw [List.map_cons, List.pairwise_cons]
      refine ⟨?_, sink_sorted h.2 (fun t ht => hx t (List.mem_cons_of_mem _ ht))⟩
      intro c hc
      obtain ⟨t, ht, rfl⟩ := List.mem_map.1 hc
      rcases sink_mem.1 ht with rfl | ht
      · omega
      · exact h.1 _ (List.mem_map.2 ⟨t, ht, rfl⟩)

theorem set_resync {trees : List Inst} {i : Nat} {t : Inst} (ht : trees[i]? = some t) (hr : t.resync = true) :
    trees.set i { t with resync := true } = trees := by
  obtain ⟨hi, rfl⟩ := List.getElem?_eq_some_iff.1 ht
  have : ({ trees[i] with resync := true } : Inst) = trees[i] := by rw [← hr]
  rw [this, List.set_getElem_self]

theorem addRule_ok {r : RuleCode} (hr : Rok v word r) (hl : R.length < 254) (hC : C r.condition.toNat) {T : Tester}
    (h : Sane S word C e R T) (hop : T.operating = false) (old : Tree) :
    ∃ T', addRule v.kind T (r.bytes word) old = .ok (T', none) ∧ Sane S word C e (R ++ [r]) T' ∧ T'.operating = false := by
  unfold addRule
  rw [if_neg (by simp [hop]), if_neg (by have := hr.min; omega),
    if_neg (by rw [h.rules, List.length_map]; omega), hr.lens.2.2.2, Res.ok_bind]
  obtain ⟨i, b, h1, h2, h3⟩ := findTree_ok (c := r.condition.toNat) h.sorted
  rw [h1, Res.ok_bind]
  simp only
  have hrules : T.rules ++ [r.bytes word] = (R ++ [r]).map (RuleCode.bytes word) := by
    rw [h.rules, List.map_append]
    rfl
  cases hb : b with
  | true =>
    rw [if_pos (by rfl)]
    obtain ⟨t, ht, htc⟩ := h2 hb
    rw [idx_eq_ok.2 ht, Res.ok_bind, set_resync ht (h.insts t (List.mem_of_getElem? ht)).1]
    refine ⟨_, rfl, ⟨hrules, h.unflushed, h.acc, h.insts, h.sorted, ?_, fun h => absurd h (by simp)⟩, hop⟩
    intro x hx
    rcases List.mem_append.1 hx with hx | hx
    · exact h.cover x hx
    · rw [List.mem_singleton.1 hx]
      exact ⟨t, List.mem_of_getElem? ht, htc⟩
  | false =>
    rw [if_neg (by simp)]
    have hn := h3 hb
    refine ⟨_, rfl, ⟨hrules, h.unflushed, h.acc, ?_, ?_, ?_, fun h => absurd h (by simp)⟩, hop⟩
    · intro x hx
      rcases sink_mem.1 (List.mem_reverse.1 hx) with rfl | hx
      · exact ⟨rfl, hC, fun h => absurd h (by simp [Inst.reconfigure])⟩
      · exact h.insts x (List.mem_reverse.1 hx)
    · simp only
      rw [List.map_reverse, List.pairwise_reverse]
      refine sink_sorted ?_ (fun t ht => hn t (List.mem_reverse.1 ht))
      rw [List.map_reverse, List.pairwise_reverse]
      exact h.sorted
    · intro x hx
      rcases List.mem_append.1 hx with hx | hx
      · obtain ⟨t, ht, hc⟩ := h.cover x hx
        exact ⟨t, List.mem_reverse.2 (sink_mem.2 (Or.inr (List.mem_reverse.2 ht))), hc⟩
      · rw [List.mem_singleton.1 hx]
        exact ⟨_, List.mem_reverse.2 (sink_mem.2 (Or.inl rfl)), rfl⟩

theorem equals_eq (a b : Bytes) : Rule.equals a b = true ↔ a = b := by
  rw [Rule.equals]
  by_cases h : a.length = b.length
  · rw [if_neg (by simp [h])]
    exact equals_go a b h
  · rw [if_pos h]
    simp only [Bool.false_eq_true, false_iff]
    rintro rfl
    exact h rfl

theorem deleteElementAt_eq {α : Type} (l : List α) (i : Nat) : deleteElementAt l i = l.eraseIdx i := by
  unfold deleteElementAt
  simp only
  by_cases h1 : i + 1 > l.length
  · rw [if_pos h1, List.eraseIdx_of_length_le (by omega)]
  · rw [if_neg h1]
    by_cases h2 : i + 1 = l.length
    · rw [if_pos h2, List.eraseIdx_eq_take_drop_succ, ← h2, List.drop_eq_nil_of_le (by omega)]
      simp
    · rw [if_neg h2, List.eraseIdx_eq_take_drop_succ]

theorem findRule_ok (b : Bytes) : ∀ {R : List RuleCode} {n : Nat},
    (findRule b (R.map (RuleCode.bytes word)) n = none ∧ ∀ r ∈ R, r.bytes word ≠ b) ∨
    ∃ i r, findRule b (R.map (RuleCode.bytes word)) n = some (n + i) ∧ R[i]? = some r ∧ r.bytes word = b ∧
      R.eraseP (fun x => decide (x.bytes word = b)) = R.eraseIdx i
  | [], n => Or.inl ⟨rfl, by simp⟩
  | r :: R, n => by
    rw [List.map_cons, findRule]
    by_cases he : r.bytes word = b
    · right
      refine ⟨0, r, ?_, rfl, he, ?_⟩
      · rw [if_pos (by rw [he]; exact (equals_eq _ _).2 rfl)]
        rfl
      · rw [List.eraseP_cons_of_pos (by simpa using he)]
        rfl
    · rw [if_neg (fun h => he ((equals_eq _ _).1 h))]
      rcases findRule_ok b (R := R) (n := n + 1) with ⟨h1, h2⟩ | ⟨i, r', h1, h2, h3, h4⟩
      · left
        refine ⟨h1, ?_⟩
        intro x hx
        rcases List.mem_cons.1 hx with rfl | hx
        · exact he
        · exact h2 x hx
      · right
        refine ⟨i + 1, r', by rw [h1]; congr 1; omega, h2, h3, ?_⟩
        rw [List.eraseP_cons_of_neg (by simpa using he), h4]
        rfl

theorem removeRule_ok {r : RuleCode} (hR : RulesOk v word R) {T : Tester} (h : Sane S word C e R T)
    (hop : T.operating = false) :
    ∃ T' b, removeRule T (r.bytes word) = .ok (T', b) ∧
      (b = true ↔ ∃ x ∈ R, x.bytes word = r.bytes word) ∧
      Sane S word C e (R.eraseP fun x => decide (x.bytes word = r.bytes word)) T' ∧ T'.operating = false := by
  unfold removeRule
  rw [if_neg (by simp [hop])]
  have hrules := h.rules
  rcases findRule_ok (word := word) (r.bytes word) (R := R) (n := 0) with ⟨h1, h2⟩ | ⟨i, x, h1, h2, h3, h4⟩
  · rw [hrules, h1]
    refine ⟨_, _, rfl, ⟨by simp, fun ⟨x, hx, hb⟩ => absurd hb (h2 x hx)⟩, ?_⟩
    rw [List.eraseP_of_forall_not (by simpa using h2)]
    exact ⟨h, hop⟩
  · rw [hrules, h1]
    have hx := List.mem_of_getElem? h2
    simp only
    rw [← h3, (hR.ok x hx).lens.2.2.2, Res.ok_bind]
    obtain ⟨j, b, f1, f2, f3⟩ := findTree_ok (c := x.condition.toNat) h.sorted
    obtain ⟨t0, t1, t2⟩ := h.cover x hx
    cases hb : b with
    | false => exact absurd t2 (f3 hb t0 t1)
    | true =>
      obtain ⟨t, ht, htc⟩ := f2 hb
      rw [f1, Res.ok_bind]
      simp only [hb]
      rw [if_neg (by simp), idx_eq_ok.2 ht, Res.ok_bind, set_resync ht (h.insts t (List.mem_of_getElem? ht)).1]
      refine ⟨_, _, rfl, ⟨fun _ => ⟨x, hx, rfl⟩, fun _ => rfl⟩, ?_⟩
      rw [h3, h4]
      refine ⟨⟨?_, h.unflushed, h.acc, h.insts, h.sorted, ?_, fun h => absurd h (by simp)⟩, hop⟩
      · simp only [Nat.zero_add]
        rw [deleteElementAt_eq, List.eraseIdx_eq_take_drop_succ, List.eraseIdx_eq_take_drop_succ, List.map_append,
          List.map_take, List.map_drop]
      · intro y hy
        exact h.cover y (List.mem_of_mem_eraseIdx hy)

theorem removeAll_ok {T : Tester} (h : Sane S word C e R T) (hop : T.operating = false) :
    ∃ T', removeAllRules T = .ok T' ∧ Sane S word C e [] T' ∧ T'.operating = false := by
  unfold removeAllRules
  rw [if_neg (by simp [hop])]
  obtain ⟨cap, h1, h2⟩ := h.acc
  have ha := holds_of_rep (holds_clear h2)
  refine ⟨_, rfl, ⟨rfl, h.unflushed, ⟨cap, h1, ha⟩, by simp, by simp, by simp, fun _ => ⟨cap, h1, ?_⟩⟩, hop⟩
  exact ⟨rfl, h.unflushed, ha, by simp [Good], by simp, by simp⟩

/-! ## Sequences -/

theorem Sane.same {T T' : Tester} {cap : Nat} (h : Sane S word C e R T) (hs : Same T.trees T'.trees)
    (hb : Base S word R cap [] T') (hcap : cap ≤ 255) : Sane S word C e R T' := by
  refine ⟨hb.rules, hb.unflushed, ⟨cap, hcap, hb.acc⟩, ?_, ?_, hb.cover, fun _ => ⟨cap, hcap, hb⟩⟩
  · intro t ht
    obtain ⟨t0, h0, he⟩ := hs.mem ht
    simp only [sig, Prod.mk.injEq] at he
    obtain ⟨a, _, b, c, d⟩ := he
    obtain ⟨k1, k2, k3⟩ := h.insts t0 h0
    rw [← a, ← b, ← c, ← d]
    exact ⟨k1, k2, k3⟩
  · rw [hs.conds]
    exact h.sorted

theorem begin_ok (hR : RulesOk v word R) (hsum : Compiles sets S v word R)
    (hP : ∀ s, P s → ∀ c, C c → ∃ s', testCondition f c s = .ok (s', e c) ∧ P s') {mv : Nat → Bool}
    {junk : List Nat} (hj : 255 ≤ junk.length) {T : Tester} {c : Compiler} {s : SettingsCache}
    (h : Sane S word C e R T) (hop : T.operating = false) (hc : c.compiling = false) (hs : P s) :
    ∃ T' c' s' cap, beginSequence v.kind mv sets f junk T c s = .ok (T', c', s', none) ∧ c'.compiling = false ∧ P s' ∧
      Sane S word C e R T' ∧ T'.operating = true ∧ T'.recompile = false ∧ cap ≤ 255 ∧ Mid S word R cap [] T' := by
  have key : ∃ T1 c1 s1, (if T.recompile then recompileAll v.kind mv sets f junk { T with operating := true } c s
      else .ok ({ T with operating := true }, c, s, none)) = .ok (T1, c1, s1, none) ∧ c1.compiling = false ∧ P s1 ∧
      Sane S word C e R T1 ∧ T1.operating = true ∧ T1.recompile = false := by
    have h' : Sane S word C e R { T with operating := true } :=
      ⟨h.rules, h.unflushed, h.acc, h.insts, h.sorted, h.cover, fun hr => by
        obtain ⟨cap, a, b⟩ := h.done hr
        exact ⟨cap, a, ⟨b.rules, b.unflushed, b.acc, b.good, b.cover, b.fits⟩⟩⟩
    cases hr : T.recompile with
    | true =>
      rw [if_pos rfl]
      obtain ⟨T1, c1, s1, h1, h2, h3, h4, h5, h6, _⟩ := recompileAll_ok hR hsum hP (mv := mv) hj h' hc hs
      rw [hr] at h1
      exact ⟨T1, c1, s1, h1, h2, h3, h4, h6, h5⟩
    | false =>
      rw [if_neg (by simp)]
      refine ⟨_, _, _, rfl, hc, hs, ?_, rfl, ?_⟩
      · rw [hr] at h'
        exact h'
      · rfl
  obtain ⟨T1, c1, s1, h1, h2, h3, h4, h5, h6⟩ := key
  obtain ⟨cap, hcap, hb⟩ := h4.done h6
  obtain ⟨l', r1, r2, r3, r4⟩ := restartAll_ok hR.groups (l := T1.trees)
  unfold beginSequence
  rw [if_neg (by simp [hop])]
  simp only
  rw [h1, Res.ok_bind]
  simp only
  rw [if_neg (by simp), r1, Res.ok_bind]
  have hb' : Base S word R cap [] { T1 with trees := l' } := hb.move ⟨rfl, rfl, rfl, r2⟩ hb.unflushed hb.acc
  exact ⟨_, _, _, cap, rfl, h2, h3, h4.same r2 hb' hcap, h5, h6, hcap, ⟨hb', r3, r4⟩⟩

theorem Emits.append {u a w : List Nat} (h : Emits S em R u a w) (x : List Nat) : Emits S em R (u ++ x) a (w ++ x) := by
  intro z o ho
  rw [List.append_assoc] at ho ⊢
  exact h _ _ ho

variable {cap : Nat}

theorem feedSeq_ok (hR : RulesOk v word R) (hne : R ≠ []) : ∀ {w : List Nat} {T : Tester} {u : List Nat},
    Run S word R cap u T → T.operating = true →
    (∀ r ∈ R, r.OccursIn S (u ++ v.accepted w) → Usable v word em R r) →
    ∃ T' out u', feedSeq v w T = .ok (T', out) ∧ Keeps T T' ∧ Run S word R cap u' T' ∧ u' <:+ u ++ v.accepted w ∧
      Emits S em R (u ++ v.accepted w) out u'
  | [], T, u, h, hop, hU => by
    refine ⟨T, [], u, rfl, Keeps.refl T, h, ?_, ?_⟩
    · simp [Variant.accepted]
    · simp only [Variant.accepted, List.filter_nil, List.append_nil]
      exact Emits.refl S em R u
  | g :: w, T, u, h, hop, hU => by
    by_cases hg : (!v.skip g && !v.bad g) = true
    · have hacc : v.accepted (g :: w) = g :: v.accepted w := List.filter_cons_of_pos hg
      rw [hacc] at hU ⊢
      rw [Bool.and_eq_true, Bool.not_eq_true', Bool.not_eq_true'] at hg
      have e1 : u ++ g :: v.accepted w = (u ++ [g]) ++ v.accepted w := by simp
      rw [e1] at hU ⊢
      obtain ⟨T1, out, u1, h1, h2, h3, h4, h5⟩ := feedOne_ok hR hne h hop hg.1 hg.2
        (fun r hr hi => hU r hr (hi.mono (List.prefix_append _ _).isInfix))
      have hsuf : u1 ++ v.accepted w <:+ (u ++ [g]) ++ v.accepted w := by
        obtain ⟨a, ha⟩ := h4
        exact ⟨a, by rw [← List.append_assoc, ha]⟩
      obtain ⟨T2, out2, u2, i1, i2, i3, i4, i5⟩ := feedSeq_ok hR hne (w := w) h3 (h2.operating.trans hop)
        (fun r hr hi => hU r hr (hi.mono hsuf.isInfix))
      refine ⟨T2, out ++ out2, u2, ?_, h2.trans i2, i3, i4.trans hsuf, (h5.append _).trans i5⟩
      rw [feedSeq, h1, Res.ok_bind]
      simp only
      rw [i1, Res.ok_bind]
      rfl
    · have hacc : v.accepted (g :: w) = v.accepted w := List.filter_cons_of_neg hg
      rw [hacc] at hU ⊢
      obtain ⟨T2, out2, u2, i1, i2⟩ := feedSeq_ok hR hne (w := w) h hop hU
      refine ⟨T2, out2, u2, ?_, i2⟩
      have hf : ∃ x, Tester.feed v T g = .ok (T, [], x) := by
        unfold Tester.feed
        rw [if_neg (by simp [hop])]
        by_cases hs : v.skip g = true
        · rw [if_pos hs]
          exact ⟨_, rfl⟩
        · rw [if_neg hs]
          by_cases hb : v.bad g = true
          · rw [if_pos hb]
            exact ⟨_, rfl⟩
          · simp [hs, hb] at hg
      obtain ⟨x, hf⟩ := hf
      rw [feedSeq, hf, Res.ok_bind]
      simp only
      rw [i1, Res.ok_bind]
      rfl

theorem Emits.batch {w a u b : List Nat} (h : Emits S em R w a u) (hb : BatchOf S em R u b) : BatchOf S em R w (a ++ b) := by
  have := h [] b (by rwa [List.append_nil])
  rwa [List.append_nil] at this

/-- A tester between sequences, with a compiler and settings that can be used. -/
structure Usual (S : Nat → List Nat) (word : Nat → Bytes) (C : Nat → Prop) (e : Nat → Bool) (P : SettingsCache → Prop) (R : List RuleCode)
    (W : World) : Prop where
  sane : Sane S word C e R W.T
  idle : W.T.operating = false
  comp : W.c.compiling = false
  sets : P W.s

theorem process_ok {E : Env} (hR : RulesOk v word R) (hne : R ≠ [])
    (hsum : Compiles E.sets S v word R)
    (hP : ∀ s, P s → ∀ c, C c → ∃ s', testCondition E.font c s = .ok (s', e c) ∧ P s')
    (hj : 255 ≤ E.junk.length) {W : World} (h : Usual S word C e P R W) {w : List Nat}
    (hU : ∀ r ∈ R, r.OccursIn S (v.accepted w) → Usable v word em R r) :
    ∃ W' out, W.process v E w = .ok (W', out) ∧ Usual S word C e P R W' ∧ W'.T.recompile = false ∧
      BatchOf S em R (v.accepted w) out := by
  obtain ⟨T1, c1, s1, cap, h1, h2, h3, h4, h5, h6, h7, h8⟩ := begin_ok hR hsum hP (mv := E.mv) hj
    h.sane h.idle h.comp h.sets
  have hrun := mid_run h8 hne
  obtain ⟨T2, out, u, f1, f2, f3, f4, f5⟩ := feedSeq_ok hR hne (w := w) hrun h5 (by simpa using hU)
  rw [List.nil_append] at f4 f5
  obtain ⟨T3, last, g1, g2, g3, g4, g5, g6⟩ := finish_ok hR hne f3 (f2.operating.trans h5)
    (fun r hr hi => hU r hr (hi.mono f4.isInfix))
  refine ⟨⟨T3, c1, s1⟩, out ++ last, ?_, ⟨h4.same (f2.trees.trans g5) g2 h7, g3, h2, h3⟩,
    g4.trans (f2.recompile.trans h6), f5.batch g6⟩
  unfold World.process
  rw [h1, Res.ok_bind]
  simp only [stop, Res.ok_bind]
  rw [f1, Res.ok_bind]
  simp only
  rw [g1, Res.ok_bind]
  rfl

theorem rulesOk_step {op : Op} (hR : RulesOk v word R) (hadd : ∀ r, op = .add r → Rok v word r ∧ R.length < 254) :
    RulesOk v word (op.rules word R) := by
  cases op with
  | add r =>
    obtain ⟨h1, h2⟩ := hadd r rfl
    refine ⟨by simp only [Op.rules, List.length_append, List.length_singleton]; omega, ?_⟩
    intro x hx
    rcases List.mem_append.1 hx with hx | hx
    · exact hR.ok x hx
    · rw [List.mem_singleton.1 hx]
      exact h1
  | remove r =>
    refine ⟨Nat.le_trans (List.length_eraseP_le) hR.len, fun x hx => hR.ok x (List.mem_of_mem_eraseP hx)⟩
  | removeAll => exact ⟨by simp [Op.rules], by simp [Op.rules]⟩
  | resync => exact hR
  | refresh => exact hR
  | seq w => exact hR

theorem run_ok {E : Env} {Q : RuleCode → Prop} {K : List RuleCode → Prop} {X : List RuleCode → List Nat → Prop}
    (hK : ∀ R, R.length ≤ 254 → (∀ r ∈ R, Q r) → K R → Compiles E.sets S v word R)
    (hQ : ∀ r, Q r → Rok v word r ∧ C r.condition.toNat)
    (hX : ∀ R w, (∀ r ∈ R, Q r) → X R w → ∀ r ∈ R, r.OccursIn S w → Usable v word em R r)
    (hP : ∀ s, P s → ∀ c, C c → ∃ s', testCondition E.font c s = .ok (s', e c) ∧ P s')
    (hj : 255 ≤ E.junk.length) : ∀ {ops : List Op} {R : List RuleCode} {W : World}, RulesOk v word R →
    (∀ r ∈ R, Q r) → Usual S word C e P R W → Allowed K v word Q X R ops →
    ∃ W' outs, World.run v word E ops W = .ok (W', outs) ∧ Outputs v word (BatchOf S em) R ops outs ∧
      Usual S word C e P (ops.foldl (Op.rules word) R) W'
  | [], R, W, _, _, h, _ => ⟨W, [], rfl, rfl, h⟩
  | op :: ops, R, W, hR, hq, h, ha => by
    obtain ⟨ha1, ha2⟩ := ha
    have key : ∃ W1 out, W.step v word E op = .ok (W1, out) ∧ Usual S word C e P (op.rules word R) W1 ∧
        (∀ r ∈ op.rules word R, Q r) ∧ RulesOk v word (op.rules word R) ∧
        (∀ outs, Outputs v word (BatchOf S em) (op.rules word R) ops outs → Outputs v word (BatchOf S em) R (op :: ops) (out ++ outs)) := by
      cases op with
      | add r =>
        obtain ⟨b1, b2⟩ := ha1
        obtain ⟨T1, h1, h2, h3⟩ := addRule_ok (hQ r b1).1 b2 (hQ r b1).2 h.sane h.idle E.old
        refine ⟨{ W with T := T1 }, [], ?_, ⟨h2, h3, h.comp, h.sets⟩, ?_, ?_, fun outs ho => ho⟩
        · unfold World.step
          simp only
          rw [h1, Res.ok_bind]
          rfl
        · intro x hx
          rcases List.mem_append.1 hx with hx | hx
          · exact hq x hx
          · rw [List.mem_singleton.1 hx]
            exact b1
        · refine rulesOk_step hR ?_
          intro r' hr'
          cases hr'
          exact ⟨(hQ r b1).1, b2⟩
      | remove r =>
        obtain ⟨T1, b, h1, _, h2, h3⟩ := removeRule_ok (r := r) hR h.sane h.idle
        refine ⟨{ W with T := T1 }, [], ?_, ⟨h2, h3, h.comp, h.sets⟩, ?_, rulesOk_step hR (by simp), fun outs ho => ho⟩
        · unfold World.step
          simp only
          rw [h1, Res.ok_bind]
          rfl
        · exact fun x hx => hq x (List.mem_of_mem_eraseP hx)
      | removeAll =>
        obtain ⟨T1, h1, h2, h3⟩ := removeAll_ok h.sane h.idle
        refine ⟨{ W with T := T1 }, [], ?_, ⟨h2, h3, h.comp, h.sets⟩, ?_, rulesOk_step hR (by simp), fun outs ho => ho⟩
        · unfold World.step
          simp only
          rw [h1, Res.ok_bind]
          rfl
        · exact fun x hx => absurd hx (by simp [Op.rules])
      | resync =>
        have key : ∃ T1 c1 s1, W.T.resync v.kind E.mv E.sets E.font E.junk W.c W.s = .ok (T1, c1, s1, none) ∧
            Usual S word C e P R ⟨T1, c1, s1⟩ := by
          unfold Tester.resync
          rw [if_neg (by simp [h.idle])]
          by_cases hr : W.T.recompile = true
          · rw [if_neg (by simp [hr])]
            obtain ⟨T1, c1, s1, h1, h2, h3, h4, _, h6, _⟩ := recompileAll_ok hR (hK R hR.len hq ha1) hP (mv := E.mv) hj
              h.sane h.comp h.sets
            exact ⟨T1, c1, s1, h1, ⟨h4, h6.trans h.idle, h2, h3⟩⟩
          · rw [if_pos (by simp [hr])]
            exact ⟨_, _, _, rfl, h⟩
        obtain ⟨T1, c1, s1, h1, h2⟩ := key
        refine ⟨_, [], ?_, h2, hq, hR, fun outs ho => ho⟩
        unfold World.step
        simp only
        rw [h1, Res.ok_bind]
        rfl
      | refresh =>
        obtain ⟨T1, s1, h1, h2, h3, h4, _⟩ := refresh_ok hP h.sets h.sane
        refine ⟨{ W with T := T1, s := s1 }, [], ?_, ⟨h3, h4.trans h.idle, h.comp, h2⟩, hq, hR, fun outs ho => ho⟩
        unfold World.step
        simp only
        rw [h1, Res.ok_bind]
        rfl
      | seq w =>
        obtain ⟨b1, b2, b3⟩ := ha1
        obtain ⟨W1, out, h1, h2, _, h3⟩ := process_ok hR b1 (hK R hR.len hq b2) hP hj h (hX R _ hq b3)
        refine ⟨W1, [out], ?_, h2, hq, hR, fun outs ho => ⟨out, outs, rfl, h3, ho⟩⟩
        unfold World.step
        simp only
        rw [h1, Res.ok_bind]
        rfl
    obtain ⟨W1, out, k1, k2, k3, k4, k5⟩ := key
    obtain ⟨W2, outs, i1, i2, i3⟩ := run_ok hK hQ hX hP hj (ops := ops) k4 k3 k2 ha2
    refine ⟨W2, out ++ outs, ?_, k5 _ i2, i3⟩
    rw [World.run, k1, Res.ok_bind]
    simp only
    rw [i1, Res.ok_bind]
    rfl

end

end TesterModel
