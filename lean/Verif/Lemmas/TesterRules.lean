import Verif.Lemmas.TesterHistory
import Verif.Lemmas.ChainCompile
import Verif.Lemmas.BushCompile
import Verif.Lemmas.SettingsCache
import Verif.Lemmas.Scanner

/-!
# Rules and conditions that testers can handle
-/

namespace TesterModel
open Go Helpers ScannerModel TreeModel FontModel CacheModel Spec Tester

variable {S : Nat → List Nat} {sets : TreeModel.Sets}

theorem scanRule_min {k : Kind} {rule : Bytes} {es : List (Nat × Nat × Nat)} (h : scanRule k rule = .ok es) :
    k.minLen ≤ rule.length := by
  unfold scanRule start at h
  by_cases hl : rule.length < k.minLen
  · rw [if_pos hl] at h
    cases h
  · omega

theorem rok_of {v : Variant} {word : Nat → Bytes} {ok : Nat → Prop} {r : RuleCode} (h : r.Ok ok)
    (hs : scanRule v.kind (r.bytes word) = .ok (r.elems.map (pair v.kind))) : Rok v word r :=
  ⟨h.total, Nat.lt_of_lt_of_le h.outPos h.outLe, scanRule_min hs⟩

/-- Rules whose sets have elements have inputs. -/
theorem inputs_some {r : RuleCode} (h : ∀ b i, (b, InElem.set i) ∈ r.elems → S i ≠ []) : ∃ p, p ∈ r.inputs S := by
  refine picks_ne fun c hc => ?_
  obtain ⟨⟨b, x⟩, hx, rfl⟩ := List.mem_map.1 hc
  cases x with
  | one v => simp [RuleCode.choices]
  | set i => exact h b i hx

theorem zip_filter (p : RuleCode → Bool) : ∀ (R : List RuleCode) (n : Nat),
    ((R.zipIdx n).filter fun x => p x.1).map (·.1) = R.filter p
  | [], _ => rfl
  | r :: R, n => by
    rw [List.zipIdx_cons, List.filter_cons, List.filter_cons]
    simp only
    split
    · rw [List.map_cons, zip_filter p R]
    · exact zip_filter p R _

theorem compiles_of {v : Variant} {word : Nat → Bytes} {ok : Nat → Prop} {max : Nat} {R : List RuleCode}
    (hl : R.length ≤ 254) (hok : ∀ r ∈ R, r.Ok ok) (hmax : max < 2 ^ (8 * v.kind.width))
    (hs : ∀ r ∈ R, scanRule v.kind (r.bytes word) = .ok (r.elems.map (pair v.kind))) (hk : ∀ x, ok x → Elem v.kind x)
    (ht : Tidy sets S max R) : Compiles sets S v word R := by
  constructor
  · intro r hr
    have hm : r ∈ R.filter fun x => decide (x.condition.toNat = r.condition.toNat) := by simp [hr]
    have laid : ∀ Q : Nat → List (Nat × Nat), (∀ i, S i = spread (Q i)) → Laid sets Q max r → ∃ p, p ∈ r.inputs S := by
      intro Q h1 h2
      refine inputs_some fun b i hb => ?_
      obtain ⟨_, h3, _, h4, _⟩ := h2 b i hb
      rw [h1]
      obtain ⟨q, hq⟩ := List.exists_mem_of_ne_nil _ h3
      have := h4 q hq
      refine List.ne_nil_of_mem (a := q.1) (List.mem_flatMap.2 ⟨q, hq, ?_⟩)
      rw [List.mem_range'_1]
      omega
    rcases ht r.condition.toNat with ⟨h, _⟩ | ⟨Q, h1, h2, _⟩ | ⟨Q, fork, h1, h2, _⟩
    · exact inputs_some fun b i hb => ((h r hm).2 b i hb).2.1
    · exact laid Q h1 (h2 r hm)
    · have h3 := h2 r hm
      unfold Branching at h3
      split at h3
      · exact inputs_some fun b i hb => by rw [h1]; exact (h3.2 b i hb).2.1
      · exact laid Q h1 h3.2
  · intro cond mv c hc
    have hz : ∀ x ∈ (R.zipIdx.filter fun x => decide (x.1.condition.toNat = cond)), x.1 ∈ R ∧ x.2 < 255 := by
      intro x hx
      have hg := List.mem_zipIdx_iff_getElem?.1 (List.mem_filter.1 hx).1
      have := (List.getElem?_eq_some_iff.1 hg).1
      exact ⟨List.mem_of_getElem? hg, by omega⟩
    have hsorted : (R.zipIdx.filter fun x => decide (x.1.condition.toNat = cond)).Pairwise fun a b => a.2 < b.2 := by
      refine List.Pairwise.filter _ ?_
      rw [List.pairwise_iff_getElem]
      intro i j hi hj hij
      simp [hij]
    have hf := zip_filter (fun r => decide (r.condition.toNat = cond)) R 0
    have ht := ht cond
    rw [← hf] at ht
    generalize (R.zipIdx.filter fun x => decide (x.1.condition.toNat = cond)) = L at hz hsorted ht ⊢
    have hm : ∀ x ∈ L, x.1 ∈ L.map (·.1) := fun x hx => List.mem_map.2 ⟨x, hx, rfl⟩
    rcases ht with ⟨h, h2⟩ | ⟨Q, h1, h2, h3, h4⟩ | ⟨Q, fork, h1, h2, h3, h4⟩
    · rw [List.map_map] at h2
      rcases compile_rules (k := v.kind) (mv := mv) (sets := sets) (S := S) (word := word) (l := L) hc
        (fun x hx => plain_of (hok _ (hz x hx).1) (h _ (hm x hx)).1 (h _ (hm x hx)).2 hmax (hs _ (hz x hx).1) hk) hsorted
        (fun x hx => (hz x hx).2) with ⟨_, h⟩ | h
      · exact absurd h2 (by simpa [Function.comp_def] using h)
      · exact h
    · obtain rfl : S = fun i => spread (Q i) := funext h1
      rw [List.map_map] at h3
      rw [List.pairwise_map] at h4
      rcases compile_apart (k := v.kind) (mv := mv) (sets := sets) (word := word) (l := L) hc
        (fun x hx => ⟨hok _ (hz x hx).1, h2 _ (hm x hx)⟩) hmax (fun x hx => hs _ (hz x hx).1) hk
        (hsorted.and h4) (fun x hx => (hz x hx).2) with ⟨_, h⟩ | h
      · exact absurd h3 (by simpa [Function.comp_def] using h)
      · exact h
    · obtain rfl : S = fun i => spread (Q i) := funext h1
      rw [List.map_map] at h3
      rw [List.pairwise_map] at h4
      rcases compile_parted (k := v.kind) (mv := mv) (sets := sets) (word := word) (l := L) (fork := fork) hc
        (fun x hx => ⟨hok _ (hz x hx).1, h2 _ (hm x hx)⟩) hmax (fun x hx => hs _ (hz x hx).1) hk
        (hsorted.and h4) (fun x hx => (hz x hx).2) with ⟨_, h⟩ | h
      · exact absurd h3 (by simpa [Function.comp_def] using h)
      · exact h

theorem rok_glyph {r : RuleCode} (h : r.Ok (· < 56789)) : Rok glyphV word16 r :=
  rok_of h (scanRule_ok glyph_coded (by decide) (by decide) r h)

theorem compiles_glyph {R : List RuleCode} (hl : R.length ≤ 254) (h : ∀ r ∈ R, r.Ok (· < 56789))
    (ht : Tidy sets S 65535 R) : Compiles sets S glyphV word16 R :=
  compiles_of hl h (by decide) (fun r hr => scanRule_ok glyph_coded (by decide) (by decide) r (h r hr)) (fun v hv =>
    ⟨by simp [glyphV, glyphKind, Kind.width]; omega, by simp [glyphV, glyphKind]; omega⟩) ht

theorem weaken {r : RuleCode} (h : r.Ok fun v => v < 2147483647 ∧ v ≠ 65533) :
    r.Ok fun v => v < 4294967296 ∧ v ≠ 65533 := by
  have key : ∀ fs : List Fragment, (∀ f ∈ fs, f.Ok fun v => v < 2147483647 ∧ v ≠ 65533) →
      ∀ f ∈ fs, f.Ok fun v => v < 4294967296 ∧ v ≠ 65533 := fun fs h f hf =>
    ⟨(h f hf).sets, (h f hf).ones, (h f hf).pos, (h f hf).set, fun v hv => by
      have := (h f hf).one v hv; exact ⟨by omega, this.2⟩⟩
  exact ⟨key _ h.head, key _ h.body, key _ h.tail, h.total, h.outPos, h.outLe⟩

theorem rok_utf8 {r : RuleCode} (h : r.Ok fun v => v < 2147483647 ∧ v ≠ 65533) : Rok utf8V word32 r :=
  rok_of h (scanRule_ok utf8_coded (by decide) (by decide) r (weaken h))

theorem compiles_utf8 {R : List RuleCode} (hl : R.length ≤ 254)
    (h : ∀ r ∈ R, r.Ok fun v => v < 2147483647 ∧ v ≠ 65533) (ht : Tidy sets S 2147483647 R) :
    Compiles sets S utf8V word32 R :=
  compiles_of hl h (by decide) (fun r hr => scanRule_ok utf8_coded (by decide) (by decide) r (weaken (h r hr)))
    (fun v hv => ⟨by simp [utf8V, utf8Kind, Kind.width]; omega, by simpa [utf8V, utf8Kind] using hv.2⟩) ht

/-- A single rule. -/
theorem tidy_one {max : Nat} {r : RuleCode} (h : Compilable sets S max [r]) : Tidy sets S max [r] := by
  intro c
  rw [List.filter_cons]
  split
  · exact h
  · exact .inl ⟨fun _ h => absurd h List.not_mem_nil, Nat.zero_le _⟩

/-- Rules with sets as last elements, and not too many elements. -/
theorem tidy_last {max : Nat} {R : List RuleCode} (h : ∀ r ∈ R, r.SetsLast ∧ Known sets S max r)
    (hs : (R.map fun r => r.weight S).sum ≤ 253) : Tidy sets S max R := by
  refine fun c => .inl ⟨fun r hr => h r (List.mem_filter.1 hr).1, Nat.le_trans ?_ hs⟩
  clear h hs
  induction R with
  | nil => exact Nat.le_refl _
  | cons r R ih =>
    rw [List.filter_cons]
    split
    · simp only [List.map_cons, List.sum_cons]
      omega
    · simp only [List.map_cons, List.sum_cons]
      omega

theorem _root_.Spec.RuleCode.Ok.outs255 {P : Nat → Prop} {r : RuleCode} (h : r.Ok P) : r.outs.length ≤ 255 := by
  have := h.total; have := h.outLe; omega

theorem singles_lt {P : Nat → Prop} {r : RuleCode} (h : r.Ok P) : ∀ g ∈ r.singles, P g := by
  have key : ∀ fs : List Fragment, (∀ f ∈ fs, f.Ok P) → ∀ g, InElem.one g ∈ blockElems fs → P g := by
    intro fs hf g hg
    obtain ⟨f, hm, he⟩ := List.mem_flatMap.1 hg
    rw [Fragment.elems, List.mem_append] at he
    rcases he with he | he
    · obtain ⟨_, _, e⟩ := List.mem_map.1 he
      cases e
    · obtain ⟨x, hx, e⟩ := List.mem_map.1 he
      cases e
      exact (hf f hm).one _ hx
  intro g hg
  obtain ⟨⟨b, e⟩, hm, he⟩ := List.mem_filterMap.1 hg
  cases e with
  | set i => cases he
  | one v =>
    simp only [Option.some.injEq] at he
    subst he
    simp only [RuleCode.elems, List.mem_append, List.mem_map, Prod.mk.injEq] at hm
    rcases hm with (⟨_, hm, _, rfl⟩ | ⟨_, hm, _, rfl⟩) | ⟨_, hm, _, rfl⟩
    · exact key _ h.head _ hm
    · exact key _ h.body _ hm
    · exact key _ h.tail _ hm

theorem glyph_outs (r : RuleCode) (ho : r.outs.length ≤ 255) (hb : ∀ g ∈ r.outs, g < 65536) :
    Rule.glyphOut (r.bytes word16) = .ok (glyphVisits r) := by
  obtain ⟨_, _, _, _, h4, h5⟩ := rule_at (r.outs.flatMap word16 ++ (blockBytes word16 r.head ++ (blockBytes word16 r.body ++
    blockBytes word16 r.tail))) r.condition (UInt8.ofNat (blockSize r.head)) (UInt8.ofNat (blockSize r.body))
    (UInt8.ofNat (blockSize r.tail)) (UInt8.ofNat r.outs.length)
  have h6 := h4.rd8
  rw [show (UInt8.ofNat r.outs.length).toNat = r.outs.length by simp; omega] at h6
  unfold Rule.glyphOut RuleCode.bytes
  rw [h6, Res.ok_bind, outLoop16 _ _ _ h5.left (by omega) hb]
  rfl

theorem utf8_outs (r : RuleCode) (ho : r.outs.length ≤ 255) (hb : ∀ g ∈ r.outs, g < 4294967296) :
    Rule.utf8Out (r.bytes word32) = .ok (runeVisits r) := by
  obtain ⟨_, _, _, _, h4, h5⟩ := rule_at (r.outs.flatMap word32 ++ (blockBytes word32 r.head ++ (blockBytes word32 r.body ++
    blockBytes word32 r.tail))) r.condition (UInt8.ofNat (blockSize r.head)) (UInt8.ofNat (blockSize r.body))
    (UInt8.ofNat (blockSize r.tail)) (UInt8.ofNat r.outs.length)
  have h6 := h4.rd8
  rw [show (UInt8.ofNat r.outs.length).toNat = r.outs.length by simp; omega] at h6
  unfold Rule.utf8Out RuleCode.bytes
  rw [h6, Res.ok_bind]
  have h7 := h5.left
  have h8 := h7.len
  rw [flat32_length] at h8
  generalize [r.condition, UInt8.ofNat (blockSize r.head), UInt8.ofNat (blockSize r.body), UInt8.ofNat (blockSize r.tail),
    UInt8.ofNat r.outs.length] ++ (r.outs.flatMap word32 ++ (blockBytes word32 r.head ++ (blockBytes word32 r.body ++
    blockBytes word32 r.tail))) = D at *
  by_cases hz : r.outs.length = 0
  · rw [hz, runeVisits, hz]; rfl
  obtain ⟨l, e1, e2, e3⟩ := outLoop32 (D := D) r.outs.length 5 (by omega)
  rw [e1]
  congr 1
  apply List.ext_getElem?
  intro j
  by_cases hj : j < (r.outs.length + 1) / 2
  · rw [e3 j hj, runeVisits, List.getElem?_map, List.getElem?_range hj, Option.map_some]
    congr 1
    have hj0 : j / 2 < r.outs.length := by omega
    have b0 := hb _ (List.getElem_mem hj0)
    have a0 := flat32_get h7 (j / 2) hj0
    rw [List.getD_eq_getElem?_getD, List.getElem?_eq_getElem hj0, Option.getD_some]
    split
    · rw [show 5 + 2 * j = 5 + 4 * (j / 2) by omega, u32At_w32 a0, Nat.mod_eq_of_lt b0]
    · have hj1 : j / 2 + 1 < r.outs.length := by omega
      have a1 := flat32_get h7 (j / 2 + 1) hj1
      rw [List.getD_eq_getElem?_getD, List.getElem?_eq_getElem hj1, Option.getD_some,
        u32At_halves a0 (At_cast a1 (by omega)) (by omega) b0]
  · rw [List.getElem?_eq_none (by omega), List.getElem?_eq_none (by simp [runeVisits]; omega)]

theorem glyphVisits_one {r : RuleCode} (h : r.outs.length ≤ 1) : glyphVisits r = r.outs := by
  rw [glyphVisits, List.take_of_length_le (by omega)]

theorem runeVisits_one {r : RuleCode} (h : r.outs.length ≤ 1) : runeVisits r = r.outs := by
  rw [runeVisits]
  match r.outs, h with
  | [], _ => rfl
  | [x], _ => simp [List.range_succ]

/-! ## Conditions -/

/-- Settings caches with the given settings, in which the conditions that are stored have their values. -/
def Settled (f : Font) (settings : List Nat) (s : SettingsCache) : Prop :=
  ∃ st : Spec.Settings.State, CacheModel.Repr s st ∧ st.settings = settings ∧
    (∀ c b, st.conditions c = some b → b = holds f settings c) ∧ ∀ n, f.numConditions = .ok n → st.numConditions = n

theorem evaluate_key {f : Font} {settings : List Nat} {c : Nat} {b : Bool} (h : f.evaluateCondition c settings = .ok b) :
    ∃ n, f.numConditions = .ok n ∧ c < n := by
  unfold Font.evaluateCondition at h
  obtain ⟨n, h1, h2⟩ := Res.bind_eq_ok.1 h
  by_cases hc : c ≥ n
  · rw [if_pos hc] at h2
    cases h2
  · exact ⟨n, h1, by omega⟩

theorem numConditions_lt {f : Font} {n : Nat} (h : f.numConditions = .ok n) : n < 256 := by
  unfold Font.numConditions rd8 at h
  obtain ⟨x, _, h2⟩ := Res.bind_eq_ok.1 h
  simp only [Res.pure_eq, Res.ok.injEq] at h2
  rw [← h2]
  exact x.toNat_lt

theorem settled_test {f : Font} {settings : List Nat} (s : SettingsCache) (h : Settled f settings s) (c : Nat)
    (hc : Evaluable f settings c) :
    ∃ s', testCondition f c s = .ok (s', holds f settings c) ∧ Settled f settings s' := by
  unfold testCondition
  by_cases h255 : c = 255
  · rw [if_pos h255]
    exact ⟨s, by rw [holds, if_pos h255], h⟩
  · rw [if_neg h255]
    obtain ⟨b, hb⟩ := hc.resolve_left h255
    obtain ⟨n, hn, hcn⟩ := evaluate_key hb
    have hn256 := numConditions_lt hn
    have hh : holds f settings c = b := by rw [holds, if_neg h255, hb]
    obtain ⟨st, h1, h2, h3, h4⟩ := h
    have hnum := h4 n hn
    have ec : (UInt8.ofNat c).toNat = c := by simp; omega
    have hpad : c < Spec.Settings.padded st.numConditions := by
      unfold Spec.Settings.padded
      omega
    have hget := (h1.step (.getCondition (UInt8.ofNat c))).1
    simp only [opStep, Spec.Settings.step, ec] at hget
    rw [if_neg h255, if_pos hpad] at hget
    cases hst : st.conditions c with
    | some b' =>
      simp only [hst] at hget
      cases hg : s.getRewriteCondition c with
      | err e => rw [hg] at hget; simp at hget
      | panic e => rw [hg] at hget; simp at hget
      | ok x =>
        obtain ⟨v, cached⟩ := x
        rw [hg] at hget
        simp only [Spec.Settings.Obs.condition.injEq] at hget
        obtain ⟨rfl, rfl⟩ := hget
        rw [Res.ok_bind]
        refine ⟨s, ?_, st, h1, h2, h3, h4⟩
        rw [← h3 c v hst]
        rfl
    | none =>
      simp only [hst] at hget
      cases hg : s.getRewriteCondition c with
      | err e => rw [hg] at hget; simp at hget
      | panic e => rw [hg] at hget; simp at hget
      | ok x =>
        obtain ⟨v, cached⟩ := x
        rw [hg] at hget
        simp only [Spec.Settings.Obs.condition.injEq] at hget
        obtain ⟨rfl, rfl⟩ := hget
        rw [Res.ok_bind]
        simp only
        rw [if_neg (by simp), h1.settings, h2, hb, Res.ok_bind]
        have hsto := h1.step (.storeCondition (UInt8.ofNat c) b)
        simp only [opStep, Spec.Settings.step, ec] at hsto
        rw [if_pos hpad] at hsto
        obtain ⟨hs1, hs2⟩ := hsto
        cases hw : s.cacheRewriteCondition c b with
        | err e => rw [hw] at hs1; simp at hs1
        | panic e => rw [hw] at hs1; simp at hs1
        | ok s' =>
          rw [hw] at hs2
          simp only at hs2
          rw [Res.ok_bind]
          refine ⟨s', by rw [hh]; rfl, _, hs2 (by simp), h2, ?_, h4⟩
          intro c' b' hcb
          simp only [Spec.Settings.put] at hcb
          by_cases hcc : c' = c
          · rw [if_pos hcc, Option.some.injEq] at hcb
            rw [hcc, hh, hcb]
          · rw [if_neg hcc] at hcb
            exact h3 c' b' hcb

theorem settled_options {f : Font} : ∀ {l : List (UInt8 × Nat)} {s s' : SettingsCache}, Settled f s.settings s →
    setOptions l s = .ok s' → Settled f s'.settings s'
  | [], s, s', h, he => by
    simp only [setOptions, Res.ok.injEq] at he
    rw [← he]
    exact h
  | (k, v) :: l, s, s', h, he => by
    rw [setOptions] at he
    obtain ⟨⟨s1, m, r⟩, h1, h2⟩ := Res.bind_eq_ok.1 he
    refine settled_options (l := l) ?_ h2
    obtain ⟨st, r1, r2, r3, r4⟩ := h
    have hstep := r1.step (.set k v)
    simp only [opStep, h1, Spec.Settings.step] at hstep
    by_cases hk : k.toNat < st.settings.length
    · rw [if_pos hk] at hstep
      have := hstep.2 (by simp)
      exact ⟨_, this, this.settings.symm, by simp, r4⟩
    · rw [if_neg hk] at hstep
      exact absurd hstep.1 (by simp)

theorem settled_new {f : Font} {s0 s : SettingsCache} {l : List (UInt8 × Nat)} (hn : SettingsCache.new f = .ok s0)
    (hs : setOptions l s0 = .ok s) : Settled f s.settings s := by
  refine settled_options ?_ hs
  have hn' := hn
  unfold SettingsCache.new at hn'
  obtain ⟨n, h1, h2⟩ := Res.bind_eq_ok.1 hn'
  obtain ⟨w, h3, h4⟩ := Res.bind_eq_ok.1 h2
  obtain ⟨k, h5, _⟩ := Res.bind_eq_ok.1 h4
  obtain ⟨c, h6, h7⟩ := CacheModel.Repr.new h1 h3 h5
  rw [hn, Res.ok.injEq] at h6
  rw [h6]
  refine ⟨_, h7, h7.settings.symm, by simp, ?_⟩
  intro n hn
  rw [h5, Res.ok.injEq] at hn
  exact hn

end TesterModel
