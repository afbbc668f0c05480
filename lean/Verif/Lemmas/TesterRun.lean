import Verif.Lemmas.TesterTrees
import Verif.Lemmas.Rules
import Verif.Spec.Batch

/-!
# Detection and rewriting
-/

namespace TesterModel
open Go ScannerModel TreeModel FontModel Spec Tester

variable {S : Nat → List Nat} {sets : TreeModel.Sets}

/-- The rules with a condition as they are fed to its tree. -/
def fedGroup (S : Nat → List Nat) (R : List RuleCode) (c : Nat) : List Fed :=
  (R.zipIdx.filter fun x => decide (x.1.condition.toNat = c)).flatMap (fedsOf S)

theorem group_eq (R : List RuleCode) (c : Nat) : group S R c = (fedGroup S R c).map fun f => (f.path, f.index) := by
  unfold group fedGroup
  rw [List.map_flatMap]
  simp only [fedsOf, List.map_map]
  rfl

theorem mem_fedGroup {R : List RuleCode} {c : Nat} {f : Fed} :
    f ∈ fedGroup S R c ↔ ∃ r i p, R[i]? = some r ∧ r.condition.toNat = c ∧ p ∈ r.inputs S ∧
      f = ⟨p, blockSize r.head, i⟩ := by
  unfold fedGroup
  rw [List.mem_flatMap]
  constructor
  · rintro ⟨⟨r, i⟩, hx, hf⟩
    obtain ⟨h1, h2⟩ := List.mem_filter.1 hx
    obtain ⟨p, hp, rfl⟩ := List.mem_map.1 hf
    exact ⟨r, i, p, List.mem_zipIdx_iff_getElem?.1 h1, by simpa using h2, hp, rfl⟩
  · rintro ⟨r, i, p, h1, h2, h3, rfl⟩
    exact ⟨(r, i), List.mem_filter.2 ⟨List.mem_zipIdx_iff_getElem?.2 h1, by simpa using h2⟩,
      List.mem_map.2 ⟨p, h3, rfl⟩⟩

theorem _root_.Spec.RuleCode.OccursIn.mono {r : RuleCode} {u w : List Nat} (h : r.OccursIn S u) (hu : u <:+: w) :
    r.OccursIn S w := by
  obtain ⟨p, h1, h2⟩ := h
  exact ⟨p, h1, h2.trans hu⟩

/-- A rule that the code can handle. -/
structure Rok (v : Variant) (word : Nat → Bytes) (r : RuleCode) : Prop where
  total : blockSize r.head + blockSize r.body + blockSize r.tail ≤ 255
  body : 0 < blockSize r.body
  min : v.kind.minLen ≤ (r.bytes word).length

theorem size_eq (r : RuleCode) : r.size = blockSize r.head + blockSize r.body + blockSize r.tail := elems_length r

/-- Rules that can also be applied, with what they put out: without a tail, or with a tail of one element when no rule
has a head. -/
structure Usable (v : Variant) (word : Nat → Bytes) (em : RuleCode → List Nat) (R : List RuleCode) (r : RuleCode) :
    Prop where
  tail : blockSize r.tail = 0 ∨ (blockSize r.tail = 1 ∧ ∀ q ∈ R, blockSize q.head = 0)
  out : v.out (r.bytes word) = .ok (em r)

structure RulesOk (v : Variant) (word : Nat → Bytes) (R : List RuleCode) : Prop where
  len : R.length ≤ 254
  ok : ∀ r ∈ R, Rok v word r

theorem RulesOk.groups {v : Variant} {word : Nat → Bytes} {R : List RuleCode} (h : RulesOk v word R) :
    GroupsOk (fedGroup S R) := by
  constructor
  · intro c
    unfold fedGroup
    refine feds_sorted (List.Pairwise.filter _ ?_)
    rw [List.pairwise_iff_getElem]
    intro i j hi hj hij
    simp [hij]
  · intro c f hf
    obtain ⟨r, i, p, h1, _, h2, rfl⟩ := mem_fedGroup.1 hf
    have h3 := inputs_size h2
    have h4 := size_eq r
    have h5 := (h.ok r (List.mem_of_getElem? h1)).body
    intro e
    simp only at e
    rw [e, List.length_nil] at h3
    omega

theorem Rok.lens {v : Variant} {word : Nat → Bytes} {r : RuleCode} (h : Rok v word r) :
    Rule.headLen (r.bytes word) = .ok (blockSize r.head) ∧ Rule.bodyLen (r.bytes word) = .ok (blockSize r.body) ∧
    Rule.tailLen (r.bytes word) = .ok (blockSize r.tail) ∧ Rule.condition (r.bytes word) = .ok r.condition.toNat := by
  obtain ⟨h0, h1, h2, h3, _, _⟩ := rule_at (r.outs.flatMap word ++ (blockBytes word r.head ++ (blockBytes word r.body ++
    blockBytes word r.tail))) r.condition (UInt8.ofNat (blockSize r.head)) (UInt8.ofNat (blockSize r.body))
    (UInt8.ofNat (blockSize r.tail)) (UInt8.ofNat r.outs.length)
  have ht := h.total
  have e : ∀ n, n ≤ 255 → (UInt8.ofNat n).toNat = n := fun n hn => by simp; omega
  refine ⟨?_, ?_, ?_, h0.rd8⟩
  · have := h1.rd8; rw [e _ (by omega)] at this; exact this
  · have := h2.rd8; rw [e _ (by omega)] at this; exact this
  · have := h3.rd8; rw [e _ (by omega)] at this; exact this

/-- A tester with its rules compiled, keeping `u`. -/
structure Base (S : Nat → List Nat) (word : Nat → Bytes) (R : List RuleCode) (cap : Nat) (u : List Nat) (T : Tester) : Prop where
  rules : T.rules = R.map (RuleCode.bytes word)
  unflushed : T.unflushed = 0
  acc : Holds T.acc u cap
  good : Good (fedGroup S R) T.trees
  cover : ∀ r ∈ R, ∃ t ∈ T.trees, t.condition = r.condition.toNat
  fits : ∀ r ∈ R, r.size ≤ cap

/-- Detection was just restarted. -/
structure Mid (S : Nat → List Nat) (word : Nat → Bytes) (R : List RuleCode) (cap : Nat) (u : List Nat) (T : Tester) : Prop
    extends Base S word R cap u T where
  start : TreesAt (fedGroup S R) [] T.trees
  scan : ∀ t ∈ T.trees, t.tree.scanning = true

/-- Detection is running. -/
structure Run (S : Nat → List Nat) (word : Nat → Bytes) (R : List RuleCode) (cap : Nat) (u : List Nat) (T : Tester) : Prop
    extends Base S word R cap u T where
  at_ : TreesAt (fedGroup S R) u T.trees
  scan : ∃ t ∈ T.trees, t.tree.scanning = true

/-- Detection was just restarted, and the first element, which is not in `u`, has already been reported. -/
structure Late (S : Nat → List Nat) (word : Nat → Bytes) (R : List RuleCode) (cap : Nat) (x : Nat) (u : List Nat) (T : Tester) : Prop where
  rules : T.rules = R.map (RuleCode.bytes word)
  unflushed : T.unflushed = 1
  acc : Holds T.acc (x :: u) cap
  good : Good (fedGroup S R) T.trees
  cover : ∀ r ∈ R, ∃ t ∈ T.trees, t.condition = r.condition.toNat
  fits : ∀ r ∈ R, r.size ≤ cap
  start : TreesAt (fedGroup S R) [] T.trees
  scan : ∀ t ∈ T.trees, t.tree.scanning = true
  headless : ∀ q ∈ R, blockSize q.head = 0

/-- One or the other, with `n` elements. -/
def Next (S : Nat → List Nat) (word : Nat → Bytes) (R : List RuleCode) (cap n : Nat) (u : List Nat) (T : Tester) : Prop :=
  (Mid S word R cap u T ∧ n = u.length) ∨ ∃ x, Late S word R cap x u T ∧ n = u.length + 1

theorem Next.num {word : Nat → Bytes} {R : List RuleCode} {cap n : Nat} {u : List Nat} {T : Tester}
    (h : Next S word R cap n u T) : T.acc.numElements = n := by
  rcases h with ⟨h, rfl⟩ | ⟨x, h, rfl⟩
  · exact h.acc.num
  · exact h.acc.num

/-- What detection leaves as it is. -/
structure Keeps (T T' : Tester) : Prop where
  rules : T'.rules = T.rules
  operating : T'.operating = T.operating
  recompile : T'.recompile = T.recompile
  trees : Same T.trees T'.trees

theorem Keeps.refl (T : Tester) : Keeps T T := ⟨rfl, rfl, rfl, rfl⟩

theorem Keeps.trans {A B C : Tester} (h : Keeps A B) (h' : Keeps B C) : Keeps A C :=
  ⟨h'.rules.trans h.rules, h'.operating.trans h.operating, h'.recompile.trans h.recompile, h.trees.trans h'.trees⟩

theorem Base.move {word : Nat → Bytes} {R : List RuleCode} {cap : Nat} {u u' : List Nat} {T T' : Tester}
    (h : Base S word R cap u T) (hk : Keeps T T') (hu : T'.unflushed = 0) (ha : Holds T'.acc u' cap) :
    Base S word R cap u' T' := by
  refine ⟨hk.rules.trans h.rules, hu, ha, hk.trees.good h.good, ?_, h.fits⟩
  intro r hr
  obtain ⟨t, ht, hc⟩ := h.cover r hr
  obtain ⟨t', ht', he⟩ := hk.trees.symm.mem ht
  simp only [sig, Prod.mk.injEq] at he
  exact ⟨t', ht', he.1.trans hc⟩

theorem mid_run {word : Nat → Bytes} {R : List RuleCode} {cap : Nat} {T : Tester} (h : Mid S word R cap [] T)
    (hR : R ≠ []) : Run S word R cap [] T := by
  refine ⟨h.toBase, h.start, ?_⟩
  obtain ⟨r, hr⟩ := List.exists_mem_of_ne_nil R hR
  obtain ⟨t, ht, _⟩ := h.cover r hr
  exact ⟨t, ht, h.scan t ht⟩

/-- There is room for another element. -/
theorem Run.room {v : Variant} {word : Nat → Bytes} {R : List RuleCode} {cap : Nat} {u : List Nat} {T : Tester}
    (hR : RulesOk v word R) (hne : R ≠ []) (h : Run S word R cap u T) : u.length < cap := by
  obtain ⟨t, ht, hs⟩ := h.scan
  have hw := ((h.at_ t ht).run hs).index hs
  have hr : FedR (fedGroup S R t.condition) u := ((h.good t ht).reach u).1 (by rw [hw]; rfl)
  rcases hr with rfl | ⟨f, hf, hp, hne'⟩
  · obtain ⟨r, hr⟩ := List.exists_mem_of_ne_nil R hne
    have h1 := h.fits r hr
    have h2 := size_eq r
    have h3 := (hR.ok r hr).body
    simp only [List.length_nil]
    omega
  · obtain ⟨r, i, p, h1, _, h2, rfl⟩ := mem_fedGroup.1 hf
    have h4 := h.fits r (List.mem_of_getElem? h1)
    have h5 := hp.length_le
    have h6 : u.length ≠ p.length := fun e => hne' (hp.eq_of_length e)
    have h7 := inputs_size h2
    simp only at h5
    omega

theorem isBest_some {R : List RuleCode} {c : Nat} {w : List Nat} {i : Nat} (h : IsBest (group S R c) w i) (hi : i ≠ 255) :
    ∃ r p, R[i]? = some r ∧ r.condition.toNat = c ∧ p ∈ r.inputs S ∧ p <+: w := by
  rcases h with ⟨h, _⟩ | ⟨x, hx, h1, h2, _⟩
  · exact absurd h hi
  · rw [group_eq, List.mem_map] at hx
    obtain ⟨f, hf, rfl⟩ := hx
    obtain ⟨r, j, p, h3, h4, h5, rfl⟩ := mem_fedGroup.1 hf
    have : i = j := h1
    subst this
    exact ⟨r, p, h3, h4, h5, h2⟩

theorem isBest_none {R : List RuleCode} (hl : R.length ≤ 254) {c : Nat} {w : List Nat} (h : IsBest (group S R c) w 255) :
    ∀ r ∈ R, r.condition.toNat = c → ∀ p ∈ r.inputs S, ¬ p <+: w := by
  have key : ∀ x ∈ group S R c, ¬ x.1 <+: w := by
    rcases h with ⟨_, h⟩ | ⟨x, hx, h1, h2, _⟩
    · exact h
    · exfalso
      rw [group_eq, List.mem_map] at hx
      obtain ⟨f, hf, rfl⟩ := hx
      obtain ⟨r, j, p, h3, h4, _, rfl⟩ := mem_fedGroup.1 hf
      have : 255 = j := h1
      subst this
      have := (List.getElem?_eq_some_iff.1 h3).1
      omega
  intro r hr hc p hpi hp
  obtain ⟨i, hi⟩ := List.getElem?_of_mem hr
  refine key (p, i) ?_ hp
  rw [group_eq]
  exact List.mem_map.2 ⟨⟨p, blockSize r.head, i⟩, mem_fedGroup.2 ⟨r, i, p, hi, hc, hpi, rfl⟩, rfl⟩

/-- Acting on what was detected does the next step of the batch rewriting. -/
theorem act_ok {v : Variant} {word : Nat → Bytes} {em : RuleCode → List Nat} {R : List RuleCode} {cap : Nat} {u : List Nat} {T : Tester}
    (hR : RulesOk v word R) (h : Base S word R cap u T) (hat : TreesAt (fedGroup S R) u T.trees) (hu : u ≠ [])
    (hU : ∀ r ∈ R, r.OccursIn S u → Usable v word em R r) :
    ∃ T' out u' n, act v T = .ok (T', out) ∧ Keeps T T' ∧ Next S word R cap n u' T' ∧ u' <:+ u ∧ n < u.length ∧
      ∀ z, (∀ t ∈ T.trees, BestFor (fedGroup S R t.condition) (u ++ z) t.tree.best) →
        ∀ o, BatchOf S em R (u' ++ z) o → BatchOf S em R (u ++ z) (out ++ o) := by
  obtain ⟨l', r1, r2, r3, r4⟩ := restartAll_ok hR.groups (l := T.trees)
  unfold act
  by_cases hb : bestMatch T.trees ruleNone = ruleNone
  · rw [if_pos hb]
    obtain ⟨x, u', rfl⟩ := List.exists_cons_of_ne_nil hu
    obtain ⟨b', p1, p2⟩ := pop_holds h.acc
    unfold popOldest
    rw [p1, Res.ok_bind]
    simp only [r1, Res.ok_bind, h.unflushed]
    rw [if_neg (by omega)]
    have hk : Keeps T { T with acc := b', trees := l' } := ⟨rfl, rfl, rfl, r2⟩
    refine ⟨_, _, u', u'.length, rfl, ?_, Or.inl ⟨⟨h.move ?_ ?_ ?_, r3, r4⟩, rfl⟩, List.suffix_cons .., by simp, ?_⟩
    · simpa [h.unflushed] using hk
    · simpa [h.unflushed] using hk
    · first | rfl | exact h.unflushed
    · exact p2
    · intro z hz o ho
      refine BatchOf.keep ?_ ho
      intro r hr
      obtain ⟨t, ht, hc⟩ := h.cover r hr
      have hle := (bestMatch_le (l := T.trees) (b := ruleNone)).2 t ht
      rw [hb] at hle
      have hbest := hz t ht
      have heq : t.tree.best = 255 := by
        rcases hbest with ⟨h1, _⟩ | ⟨y, hy, h1, _⟩
        · exact h1
        · exfalso
          rw [List.mem_map] at hy
          obtain ⟨f, hf, rfl⟩ := hy
          obtain ⟨r', j, _, h3, _, _, rfl⟩ := mem_fedGroup.1 hf
          have := (List.getElem?_eq_some_iff.1 h3).1
          have hj : t.tree.best = j := h1
          have := hR.len
          simp only [ruleNone] at hle
          omega
      rw [heq] at hbest
      unfold BestFor at hbest
      rw [← group_eq] at hbest
      exact isBest_none hR.len hbest r hr hc.symm
  · rw [if_neg hb]
    obtain ⟨t, ht, hbt⟩ := (bestMatch_mem (l := T.trees) (b := ruleNone)).resolve_left hb
    have hbest := (hat t ht).best
    unfold BestFor at hbest
    rw [← group_eq] at hbest
    rw [hbt] at hbest
    obtain ⟨r, p, g1, g2, g4, g3⟩ := isBest_some hbest hb
    have hr := List.mem_of_getElem? g1
    have hk := hR.ok r hr
    have hus := hU r hr ⟨p, g4, g3.isInfix⟩
    have hlen := g3.length_le
    rw [inputs_size g4] at hlen
    have hsz := size_eq r
    obtain ⟨q1, q2, q3, _⟩ := hk.lens
    obtain ⟨b1, p1, p2⟩ := reportHead_holds h.acc (n := blockSize r.head) (by omega)
    obtain ⟨b2, p3, p4⟩ := dropBody_holds p2 (n := blockSize r.body) (by simp; omega)
    rw [List.drop_drop] at p4
    have hi : T.rules[bestMatch T.trees ruleNone]? = some (r.bytes word) := by
      rw [h.rules, List.getElem?_map, g1]; rfl
    -- what is put out and what is left
    have hres : ∃ T' n, rewrite v T (bestMatch T.trees ruleNone) = .ok (T', u.take (blockSize r.head) ++ em r ++ r.tailOf u) ∧
        Keeps T T' ∧ Next S word R cap n (u.drop r.size) T' ∧ n < u.length := by
      have hbody := hk.body
      have hrw : rewrite v T (bestMatch T.trees ruleNone) = (if blockSize r.tail > 0 then do
            let g ← b2.head
            let (acc, tail) ← reportTail (blockSize r.tail - 1) b2
            return ({ T with acc := acc, trees := l', unflushed := blockSize r.tail },
              u.take (blockSize r.head) ++ em r ++ g :: tail)
          else return ({ T with acc := b2, trees := l', unflushed := 0 }, u.take (blockSize r.head) ++ em r)) := by
        unfold rewrite
        rw [if_neg hb, idx_eq_ok.2 hi, Res.ok_bind, q1, Res.ok_bind, h.unflushed, p1, Res.ok_bind]
        simp only
        rw [if_neg (by omega), hus.out, Res.ok_bind, q2, Res.ok_bind, p3, Res.ok_bind, r1, Res.ok_bind, q3, Res.ok_bind]
      rw [hrw]
      rcases hus.tail with htail | ⟨htail, hhl⟩
      · rw [if_neg (by omega)]
        have hdr : blockSize r.head + blockSize r.body = r.size := by omega
        have hts : r.tailOf u = [] := by
          unfold RuleCode.tailOf
          rw [htail, List.take_zero]
        rw [hdr] at p4
        rw [hts, List.append_nil]
        have hkp : Keeps T { T with acc := b2, trees := l', unflushed := 0 } := ⟨rfl, rfl, rfl, r2⟩
        refine ⟨_, _, rfl, hkp, Or.inl ⟨⟨h.move hkp rfl p4, r3, r4⟩, rfl⟩, ?_⟩
        rw [List.length_drop]
        omega
      · rw [if_pos (by omega), htail]
        have hdr : blockSize r.head + blockSize r.body + 1 = r.size := by omega
        have hlt : blockSize r.head + blockSize r.body < u.length := by omega
        have hdc := List.drop_eq_getElem_cons hlt
        have hts : r.tailOf u = [u[blockSize r.head + blockSize r.body]] := by
          unfold RuleCode.tailOf
          rw [htail, hdc]
          rfl
        rw [hdc] at p4
        rw [head_holds p4, Res.ok_bind, hts]
        have hkp : Keeps T { T with acc := b2, trees := l', unflushed := 1 } := ⟨rfl, rfl, rfl, r2⟩
        have hbs := h.move (T' := { T with acc := T.acc, trees := l', unflushed := 0 }) ⟨rfl, rfl, rfl, r2⟩ rfl h.acc
        refine ⟨_, _, rfl, hkp, Or.inr ⟨u[blockSize r.head + blockSize r.body], ⟨hbs.rules, rfl, ?_, hbs.good, hbs.cover, h.fits, r3, r4, hhl⟩, rfl⟩, ?_⟩
        · rw [← hdr]; exact p4
        · rw [List.length_drop]
          omega
    obtain ⟨T', n, hres, hkp, hnx, hn⟩ := hres
    rw [hres]
    refine ⟨_, _, u.drop r.size, n, rfl, hkp, hnx, List.drop_suffix .., hn, ?_⟩
    · intro z hz o ho
      have hch : Chosen S R (u ++ z) (bestMatch T.trees ruleNone) r := by
        refine ⟨g1, ?_, ?_⟩
        · have := hz t ht
          unfold BestFor at this
          rw [← group_eq, hbt] at this
          rw [g2]
          exact this
        · intro c j hj
          by_cases hj255 : j = 255
          · subst hj255
            have := (bestMatch_le (l := T.trees) (b := ruleNone)).1
            exact this
          · obtain ⟨r', _, e1, e2, _⟩ := isBest_some hj hj255
            obtain ⟨t', ht', hc'⟩ := h.cover r' (List.mem_of_getElem? e1)
            have hbb := hz t' ht'
            unfold BestFor at hbb
            rw [← group_eq, hc', e2] at hbb
            have : t'.tree.best = j := by
              rcases hj with ⟨h1, _⟩ | ⟨x, hx, hx1, hx2, hx3⟩
              · exact absurd h1 hj255
              · rcases hbb with ⟨h1, h2⟩ | ⟨y, hy, hy1, hy2, hy3⟩
                · exact absurd hx2 (h2 x hx)
                · rcases hx3 y hy hy2 with l1 | ⟨l1, l1'⟩
                  · rcases hy3 x hx hx2 with l2 | ⟨l2, _⟩
                    · omega
                    · rw [l2] at l1; omega
                  · rcases hy3 x hx hx2 with l2 | ⟨l2, l2'⟩
                    · rw [l1] at l2; omega
                    · omega
            rw [← this]
            exact (bestMatch_le (l := T.trees) (b := ruleNone)).2 t' ht'
      have hB := BatchOf.rewrite hch (o := o) (by
        rw [List.drop_append_of_le_length hlen]
        exact ho)
      have ht : r.tailOf (u ++ z) = r.tailOf u := by
        unfold RuleCode.tailOf
        rw [List.drop_append_of_le_length (by omega), List.take_append_of_le_length (by rw [List.length_drop]; omega)]
      rw [List.take_append_of_le_length (by omega), ht] at hB
      exact hB

end TesterModel
