import Verif.Lemmas.TesterRules
import Verif.Lemmas.Batch

/-!
# Testers in any variant
-/

namespace TesterModel
open Go Helpers ScannerModel TreeModel FontModel CacheModel Spec Tester

variable {S : Nat → List Nat} {sets : TreeModel.Sets}

/-- What is needed from a kind of rules. -/
structure Handles (E : Env) (S : Nat → List Nat) (v : Variant) (word : Nat → Bytes) (vis : RuleCode → List Nat)
    (settings : List Nat) (Q : RuleCode → Prop) (K : List RuleCode → Prop) : Prop where
  rok : ∀ r, Q r → Rok v word r
  compiles : ∀ R, R.length ≤ 254 → (∀ r ∈ R, Q r) → K R → Compiles E.sets S v word R
  out : ∀ r, Q r → v.out (r.bytes word) = .ok (vis r)
  cond : ∀ r, Q r → Evaluable E.font settings r.condition.toNat

theorem glyph_handles (E : Env) (S : Nat → List Nat) (settings : List Nat) :
    Handles E S glyphV word16 glyphVisits settings (GlyphRule E settings) (Tidy E.sets S 65535) :=
  ⟨fun _ h => rok_glyph h.1, fun _ hl h => compiles_glyph hl fun r hr => (h r hr).1,
    fun r h => glyph_outs r h.1.outs255 h.2.1, fun _ h => h.2.2⟩

theorem utf8_handles (E : Env) (S : Nat → List Nat) (settings : List Nat) :
    Handles E S utf8V word32 runeVisits settings (Utf8Rule E settings) (Tidy E.sets S 2147483647) :=
  ⟨fun _ h => rok_utf8 h.1, fun _ hl h => compiles_utf8 hl fun r hr => (h r hr).1,
    fun r h => utf8_outs r h.1.outs255 h.2.1, fun _ h => h.2.2⟩

section
variable {v : Variant} {word : Nat → Bytes} {em vis : RuleCode → List Nat} {E : Env} {Q : RuleCode → Prop} {K : List RuleCode → Prop} {settings : List Nat}

/-- The worlds that histories go through. -/
abbrev Fine (S : Nat → List Nat) (word : Nat → Bytes) (f : Font) (settings : List Nat) (R : List RuleCode) (W : World) : Prop :=
  Usual S word (Evaluable f settings) (holds f settings) (Settled f settings) R W

theorem Fine.fresh {f : Font} {s : SettingsCache} (hs : Settled f s.settings s) :
    Fine S word f s.settings [] { s := s } := ⟨Sane.fresh, rfl, rfl, hs⟩

/-- Sequences in which only rules occur that put out what `em` says. -/
def Apt (S : Nat → List Nat) (em vis : RuleCode → List Nat) (Q : RuleCode → Prop) (X : List RuleCode → List Nat → Prop) : Prop :=
  ∀ R w, (∀ r ∈ R, Q r) → X R w → ∀ r ∈ R, r.OccursIn S w → r.ShortTail R ∧ vis r = em r

theorem apt_shortTails : Apt S vis vis Q (ShortTails S) := fun _ _ _ h r hr hi => ⟨h r hr hi, rfl⟩

theorem apt_glyphs : Apt S RuleCode.outs glyphVisits Q (Simple S) := fun _ _ _ h r hr hi =>
  ⟨(h r hr hi).1, glyphVisits_one (h r hr hi).2⟩

theorem apt_runes : Apt S RuleCode.outs runeVisits Q (Simple S) := fun _ _ _ h r hr hi =>
  ⟨(h r hr hi).1, runeVisits_one (h r hr hi).2⟩

theorem apt_none : Apt S vis vis Q (fun R w => ∀ r ∈ R, ¬ r.OccursIn S w) := fun _ _ _ h r hr hi =>
  absurd hi (h r hr)

theorem Handles.use {X : List RuleCode → List Nat → Prop} (hQ : Handles E S v word vis settings Q K)
    (hX : Apt S em vis Q X) {R : List RuleCode} {w : List Nat} (hR : ∀ r ∈ R, Q r) (h : X R w) (r : RuleCode) (hr : r ∈ R)
    (hi : r.OccursIn S w) : Usable v word em R r := by
  obtain ⟨h1, h2⟩ := hX R w hR h r hr hi
  refine ⟨?_, by rw [hQ.out r (hR r hr), h2]⟩
  rcases h1 with h1 | ⟨h1, h3⟩
  · exact Or.inl (by rw [h1]; rfl)
  · exact Or.inr ⟨h1, fun q hq => by rw [h3 q hq]; rfl⟩

section
variable {X : List RuleCode → List Nat → Prop}

theorem history_ok (hQ : Handles E S v word vis settings Q K) (hX : Apt S em vis Q X) (hj : 255 ≤ E.junk.length) {ops : List Op} {R : List RuleCode}
    {W : World} (hl : R.length ≤ 254) (hR : ∀ r ∈ R, Q r) (hW : Fine S word E.font settings R W)
    (ha : Allowed K v word Q X R ops) :
    ∃ W' outs, World.run v word E ops W = .ok (W', outs) ∧ Outputs v word (BatchOf S em) R ops outs ∧
      Fine S word E.font settings (ops.foldl (Op.rules word) R) W' :=
  run_ok hQ.compiles (fun r h => ⟨hQ.rok r h, hQ.cond r h⟩)
    (fun _ _ h hs => hQ.use hX h hs) settled_test hj
    ⟨hl, fun r hr => hQ.rok r (hR r hr)⟩ hR hW ha

theorem allowed_adds {X : List RuleCode → List Nat → Prop} {ops : List Op} : ∀ {R R' : List RuleCode},
    (∀ r ∈ R', Q r) → R.length + R'.length ≤ 254 → Allowed K v word Q X (R ++ R') ops →
    Allowed K v word Q X R (R'.map .add ++ ops)
  | R, [], _, _, h => by simpa using h
  | R, r :: R', hq, hl, h => by
    simp only [List.length_cons] at hl
    refine ⟨⟨hq r List.mem_cons_self, by omega⟩, ?_⟩
    refine allowed_adds (R := R ++ [r]) (fun x hx => hq x (List.mem_cons_of_mem _ hx)) ?_ ?_
    · simp only [List.length_append, List.length_singleton]
      omega
    · simpa using h

theorem outputs_adds {B : List RuleCode → List Nat → List Nat → Prop} {ops : List Op} {outs : List (List Nat)} :
    ∀ {R R' : List RuleCode}, Outputs v word B R (R'.map .add ++ ops) outs → Outputs v word B (R ++ R') ops outs
  | R, [], h => by simpa using h
  | R, r :: R', h => by
    have := outputs_adds (R := R ++ [r]) (R' := R') h
    simpa using this

theorem adds_rules (R' : List RuleCode) : ∀ {R : List RuleCode},
    (R'.map Op.add).foldl (Op.rules word) R = R ++ R' := by
  induction R' with
  | nil => intro R; simp
  | cons r R' ih =>
    intro R
    rw [List.map_cons, List.foldl_cons, ih]
    simp [Op.rules]

/-- Rules added to a fresh tester. -/
theorem adds_ok (hQ : Handles E S v word vis settings Q K) (hj : 255 ≤ E.junk.length) {R : List RuleCode} {W : World}
    (hl : R.length ≤ 254) (hR : ∀ r ∈ R, Q r) (hW : Fine S word E.font settings [] W) :
    ∃ W', World.run v word E (R.map .add) W = .ok (W', []) ∧ Fine S word E.font settings R W' := by
  have ha : Allowed K v word Q (ShortTails S) [] (R.map .add ++ []) := allowed_adds hR (by simpa using hl) trivial
  rw [List.append_nil] at ha
  obtain ⟨W', outs, h1, h2, h3⟩ := history_ok hQ apt_shortTails hj (by simp) (by simp) hW ha
  have h2' : Outputs v word (BatchOf S vis) ([] ++ R) [] outs := outputs_adds (by rwa [List.append_nil])
  rw [adds_rules, List.nil_append] at h3
  rw [show outs = [] from h2'] at h1
  exact ⟨W', h1, h3⟩

/-- One sequence on a fresh tester. -/
theorem sequence_ok (hQ : Handles E S v word vis settings Q K) (hX : Apt S em vis Q X) (hj : 255 ≤ E.junk.length) {R : List RuleCode} {W : World}
    {w : List Nat} (hne : R ≠ []) (hl : R.length ≤ 254) (hsum : K R)
    (hR : ∀ r ∈ R, Q r) (hW : Fine S word E.font settings [] W) (hs : X R (v.accepted w)) :
    ∃ W' out, World.run v word E (R.map .add ++ [.seq w]) W = .ok (W', [out]) ∧ BatchOf S em R (v.accepted w) out := by
  have ha : Allowed K v word Q X [] (R.map .add ++ [.seq w]) :=
    allowed_adds hR (by simpa using hl) ⟨⟨hne, hsum, hs⟩, trivial⟩
  obtain ⟨W', outs, h1, h2, _⟩ := history_ok hQ hX hj (by simp) (by simp) hW ha
  obtain ⟨o, rest, rfl, h3, h4⟩ := outputs_adds h2
  have : rest = [] := h4
  subst this
  exact ⟨W', o, h1, h3⟩

/-- What is kept back is shorter than a rule. -/
theorem Run.held {R : List RuleCode} {cap : Nat} {u : List Nat} {T : Tester}
    (hR : RulesOk v word R) (hne : R ≠ []) (h : Run S word R cap u T) : ∃ r ∈ R, u.length < r.size := by
  obtain ⟨t, ht, hs⟩ := h.scan
  have hw := ((h.at_ t ht).run hs).index hs
  have hr : FedR (fedGroup S R t.condition) u := ((h.good t ht).reach u).1 (by rw [hw]; rfl)
  rcases hr with rfl | ⟨f, hf, hp, hne'⟩
  · obtain ⟨r, hr⟩ := List.exists_mem_of_ne_nil R hne
    have h2 := size_eq r
    have h3 := (hR.ok r hr).body
    exact ⟨r, hr, by simp only [List.length_nil]; omega⟩
  · obtain ⟨r, i, p, h1, _, h2, rfl⟩ := mem_fedGroup.1 hf
    have h5 := hp.length_le
    have h6 : u.length ≠ p.length := fun e => hne' (hp.eq_of_length e)
    have h7 := inputs_size h2
    simp only at h5
    exact ⟨r, List.mem_of_getElem? h1, by omega⟩

theorem Rok.ne {r : RuleCode} (h : Rok v word r) : r.size ≠ 0 := by
  have h1 := size_eq r
  have h2 := h.body
  omega

/-- Partway through a sequence. -/
theorem partway_ok (hQ : Handles E S v word vis settings Q K) (hX : Apt S em vis Q X) (hj : 255 ≤ E.junk.length) {R : List RuleCode} {W : World}
    {w : List Nat} (hne : R ≠ []) (hl : R.length ≤ 254) (hsum : K R)
    (hR : ∀ r ∈ R, Q r) (hW : Fine S word E.font settings R W) (hs : X R (v.accepted w)) :
    ∃ T' out u, W.partway v E w = .ok (T', out) ∧ u <:+ v.accepted w ∧ (∃ r ∈ R, u.length < r.size) ∧
      ∀ z o, BatchOf S em R (v.accepted w ++ z) o → ∃ o', o = out ++ o' ∧ BatchOf S em R (u ++ z) o' := by
  have hok : RulesOk v word R := ⟨hl, fun r hr => hQ.rok r (hR r hr)⟩
  have hnes : ∀ r ∈ R, r.size ≠ 0 := fun r hr => (hok.ok r hr).ne
  obtain ⟨T1, c1, s1, cap, h1, h2, h3, h4, h5, h6, h7, h8⟩ := begin_ok hok (hQ.compiles R hl hR hsum) (f := E.font)
    (P := Settled E.font settings) (e := holds E.font settings) settled_test (mv := E.mv) hj
    hW.sane hW.idle hW.comp hW.sets
  obtain ⟨T2, out, u, f1, f2, f3, f4, f5⟩ := feedSeq_ok hok hne (w := w) (mid_run h8 hne) h5
    (by simpa using hQ.use hX hR hs)
  rw [List.nil_append] at f4 f5
  refine ⟨T2, out, u, ?_, f4, f3.held hok hne, ?_⟩
  · unfold World.partway
    rw [h1, Res.ok_bind]
    simp only [stop, Res.ok_bind]
    exact f1
  · intro z o ho
    obtain ⟨o', ho'⟩ := BatchOf.total hl hnes (u ++ z).length (u ++ z) (Nat.le_refl _)
    exact ⟨o', ho.unique hl hnes (f5 z o' ho'), ho'⟩

end

theorem allowed_weaken {X X' : List RuleCode → List Nat → Prop} (hX : ∀ R w, X R w → X' R w) :
    ∀ {ops : List Op} {R : List RuleCode}, Allowed K v word Q X R ops → Allowed K v word Q X' R ops
  | [], _, _ => trivial
  | op :: ops, R, h => by
    obtain ⟨h1, h2⟩ := h
    refine ⟨?_, allowed_weaken hX h2⟩
    cases op with
    | seq w => exact ⟨h1.1, h1.2.1, hX _ _ h1.2.2⟩
    | add r => exact h1
    | remove r => exact h1
    | removeAll => exact h1
    | resync => exact h1
    | refresh => exact h1

/-- When no rule occurs, the output of a sequence is its input. -/
theorem outputs_same : ∀ {ops : List Op} {R : List RuleCode} {outs : List (List Nat)},
    R.length ≤ 254 → Allowed K v word Q (fun R w => ∀ r ∈ R, ¬ r.OccursIn S w) R ops → Outputs v word (BatchOf S em) R ops outs →
    Outputs v word (fun _ w o => o = w) R ops outs
  | [], _, _, _, _, h => h
  | op :: ops, R, outs, hl, ha, h => by
    obtain ⟨h1, h2⟩ := ha
    cases op with
    | seq w =>
      obtain ⟨o, rest, h3, h4, h5⟩ := h
      exact ⟨o, rest, h3, h4.same hl h1.2.2, outputs_same hl h2 h5⟩
    | add r =>
      have hl' : (Op.rules word R (.add r)).length ≤ 254 := by
        simp only [Op.rules, List.length_append, List.length_singleton]
        have := h1.2
        omega
      exact outputs_same (ops := ops) hl' h2 h
    | remove r =>
      have hl' : (Op.rules word R (.remove r)).length ≤ 254 := Nat.le_trans List.length_eraseP_le hl
      exact outputs_same (ops := ops) hl' h2 h
    | removeAll => exact outputs_same (ops := ops) (R := []) (by simp) h2 h
    | resync => exact outputs_same (ops := ops) (R := R) hl h2 h
    | refresh => exact outputs_same (ops := ops) (R := R) hl h2 h

/-! ## Errors -/

theorem addRule_rejected {k : Kind} {T T' : Tester} {rule : Bytes} {old : Tree} {m : String}
    (h : addRule k T rule old = .ok (T', some m)) : T' = T := by
  unfold addRule at h
  by_cases h1 : T.operating = true
  · rw [if_pos h1] at h
    cases h
  rw [if_neg h1] at h
  by_cases h2 : rule.length < k.minLen
  · rw [if_pos h2] at h
    simp only [Res.ok.injEq, Prod.mk.injEq] at h
    exact h.1.symm
  rw [if_neg h2] at h
  by_cases h3 : T.rules.length ≥ 254
  · rw [if_pos h3] at h
    simp only [Res.ok.injEq, Prod.mk.injEq] at h
    exact h.1.symm
  rw [if_neg h3] at h
  obtain ⟨c, _, h⟩ := Res.bind_eq_ok.1 h
  obtain ⟨⟨i, found⟩, _, h⟩ := Res.bind_eq_ok.1 h
  obtain ⟨trees, _, h⟩ := Res.bind_eq_ok.1 h
  simp only [Res.pure_eq, Res.ok.injEq, Prod.mk.injEq] at h
  exact absurd h.2 (by simp)

theorem compileTrees_error {k : Kind} {mv : Nat → Bool} {sets : Sets} {f : Font} {rules : List Bytes} {m : String} :
    ∀ {l l' : List Inst} {c c' : Compiler} {s s' : SettingsCache},
    compileTrees k mv sets f rules l c s = .ok (l', c', s', some m) → c'.compiling = true
  | [], l', c, c', s, s', h => by simp [compileTrees] at h
  | t :: l, l', c, c', s, s', h => by
    rw [compileTrees] at h
    obtain ⟨⟨s1, t1⟩, _, h⟩ := Res.bind_eq_ok.1 h
    simp only at h
    by_cases hr : t1.resync = true
    · rw [if_pos hr] at h
      obtain ⟨c1, _, h⟩ := Res.bind_eq_ok.1 h
      obtain ⟨mine, _, h⟩ := Res.bind_eq_ok.1 h
      cases hf : feedAll k mv sets mine c1 with
      | panic e =>
        simp only [hf] at h
        cases h
      | err e =>
        simp only [hf, Res.pure_eq, Res.ok.injEq, Prod.mk.injEq] at h
        rw [← h.2.1]
      | ok c2 =>
        simp only [hf] at h
        obtain ⟨⟨S, c3⟩, _, h⟩ := Res.bind_eq_ok.1 h
        obtain ⟨⟨l2, c4, s4, e4⟩, h5, h⟩ := Res.bind_eq_ok.1 h
        simp only [Res.pure_eq, Res.ok.injEq, Prod.mk.injEq] at h
        rw [h.2.2.2] at h5
        rw [← h.2.1]
        exact compileTrees_error h5
    · rw [if_neg hr] at h
      obtain ⟨⟨l2, c4, s4, e4⟩, h5, h⟩ := Res.bind_eq_ok.1 h
      simp only [Res.pure_eq, Res.ok.injEq, Prod.mk.injEq] at h
      rw [h.2.2.2] at h5
      rw [← h.2.1]
      exact compileTrees_error h5

theorem recompile_error {k : Kind} {mv : Nat → Bool} {sets : Sets} {f : Font} {junk : List Nat} {T T' : Tester}
    {c c' : Compiler} {s s' : SettingsCache} {m : String}
    (h : recompileAll k mv sets f junk T c s = .ok (T', c', s', some m)) :
    c'.compiling = true ∧ T'.operating = T.operating ∧ T'.recompile = T.recompile := by
  unfold recompileAll at h
  obtain ⟨⟨l, c1, s1, e⟩, h1, h⟩ := Res.bind_eq_ok.1 h
  simp only at h
  by_cases he : e.isSome = true
  · rw [if_pos he] at h
    simp only [Res.pure_eq, Res.ok.injEq, Prod.mk.injEq] at h
    obtain ⟨h2, h3, _, h5⟩ := h
    rw [h5] at h1
    rw [← h2, ← h3]
    exact ⟨compileTrees_error h1, rfl, rfl⟩
  · rw [if_neg he] at h
    obtain ⟨n, _, h⟩ := Res.bind_eq_ok.1 h
    obtain ⟨⟨b, acc⟩, _, h⟩ := Res.bind_eq_ok.1 h
    simp only [Res.pure_eq, Res.ok.injEq, Prod.mk.injEq] at h
    exact absurd h.2.2.2 (by simp)

/-- Errors when a sequence begins. -/
theorem begin_error {k : Kind} {mv : Nat → Bool} {sets : Sets} {f : Font} {junk : List Nat} {T T' : Tester}
    {c c' : Compiler} {s s' : SettingsCache} {m : String}
    (h : beginSequence k mv sets f junk T c s = .ok (T', c', s', some m)) :
    c'.compiling = true ∧ T'.operating = true := by
  unfold beginSequence at h
  by_cases h1 : T.operating = true
  · rw [if_pos h1] at h
    cases h
  rw [if_neg h1] at h
  simp only at h
  obtain ⟨⟨T1, c1, s1, e⟩, h2, h⟩ := Res.bind_eq_ok.1 h
  simp only at h
  by_cases he : e.isSome = true
  · rw [if_pos he] at h
    simp only [Res.pure_eq, Res.ok.injEq, Prod.mk.injEq] at h
    obtain ⟨rfl, rfl, rfl, rfl⟩ := h
    by_cases hr : T.recompile = true
    · rw [if_pos hr] at h2
      obtain ⟨a, b, _⟩ := recompile_error h2
      exact ⟨a, b⟩
    · rw [if_neg hr] at h2
      simp at h2
  · rw [if_neg he] at h
    obtain ⟨l, _, h⟩ := Res.bind_eq_ok.1 h
    simp only [Res.pure_eq, Res.ok.injEq, Prod.mk.injEq] at h
    exact absurd h.2.2.2 (by simp)

/-- A compiler that is in the middle of a compilation makes every compilation panic. -/
theorem compileTrees_stuck {k : Kind} {mv : Nat → Bool} {sets : Sets} {f : Font} {rules : List Bytes} {t : Inst}
    {l : List Inst} {c : Compiler} {s s1 : SettingsCache} {b : Bool} (hc : c.compiling = true) (hr : t.resync = true)
    (ht : testCondition f t.condition s = .ok (s1, b)) :
    (compileTrees k mv sets f rules (t :: l) c s).isPanic = true := by
  rw [compileTrees]
  cases hca : t.cached with
  | false =>
    rw [if_pos (by rfl), ht, Res.ok_bind]
    simp only [Res.pure_eq, Res.ok_bind]
    rw [if_pos hr]
    unfold begin
    rw [if_pos hc]
    rfl
  | true =>
    rw [if_neg (by simp)]
    simp only [Res.pure_eq, Res.ok_bind]
    rw [if_pos hr]
    unfold begin
    rw [if_pos hc]
    rfl

/-- The first tree can not be compiled. -/
theorem compileTrees_err {k : Kind} {mv : Nat → Bool} {sets : Sets} {f : Font} {rules : List Bytes} {t : Inst}
    {l : List Inst} {c c1 : Compiler} {s s1 : SettingsCache} {b : Bool} {mine : List (Bytes × Nat)} {e : String}
    (hca : t.cached = false) (hr : t.resync = true) (ht : testCondition f t.condition s = .ok (s1, b))
    (hc : begin c = .ok c1) (hm : rulesWith t.condition rules 0 = .ok mine) (he : feedAll k mv sets mine c1 = .err e) :
    compileTrees k mv sets f rules (t :: l) c s =
      .ok ({ t with value := b, cached := true } :: l, { c1 with compiling := true }, s1, some e) := by
  rw [compileTrees, if_pos (by simp [hca]), ht, Res.ok_bind]
  simp only [Res.pure_eq, Res.ok_bind]
  rw [if_pos hr, hc, Res.ok_bind, hm, Res.ok_bind, he]

end

end TesterModel
