import Verif.Lemmas.History
import Verif.Props.C07
import Verif.Props.C08
import Verif.Props.C11
import Verif.Props.C39
import Verif.Spec.Accepts

/-! # Which calls succeed -/

namespace Spec
open Go BuilderModel

/-- A result is a success when `A`, a panic when `P`, and an error otherwise. -/
def Outcome {α : Type} (x : Res α) (A P : Prop) : Prop :=
  (A → x.isOk = true) ∧ (P → x.isPanic = true) ∧ (¬ A → ¬ P → ∃ s, x = .err s)

namespace Outcome
variable {α β : Type} {A P B Q : Prop}

theorem ok (a : α) : Outcome (.ok a) True False := ⟨fun _ => rfl, False.elim, fun h => (h trivial).elim⟩

theorem err (s : String) : Outcome (.err s : Res α) False False := ⟨False.elim, False.elim, fun _ _ => ⟨s, rfl⟩⟩

theorem panic (s : String) : Outcome (.panic s : Res α) False True := ⟨False.elim, fun _ => rfl, fun _ h => (h trivial).elim⟩

theorem congr {x : Res α} (h : Outcome x A P) (ha : B ↔ A) (hp : Q ↔ P) : Outcome x B Q := by
  rw [show B = A from propext ha, show Q = P from propext hp]; exact h

theorem of_ok {x : Res α} (h : Outcome x A P) (a : α) (hx : x = .ok a) : A ∧ ¬ P := by
  subst hx
  refine ⟨Classical.byContradiction fun ha => ?_, fun hp => by cases h.2.1 hp⟩
  by_cases hp : P
  · cases h.2.1 hp
  · obtain ⟨s, hs⟩ := h.2.2 ha hp
    cases hs

theorem ite_err {c : Prop} [Decidable c] {s : String} {x : Res α} (h : ¬ c → Outcome x A P) :
    Outcome (if c then .err s else x) (¬ c ∧ A) (¬ c ∧ P) := by
  by_cases hc : c
  · rw [if_pos hc]; exact (err s).congr (by simp [hc]) (by simp [hc])
  · rw [if_neg hc]; exact (h hc).congr (by simp [hc]) (by simp [hc])

theorem ite_panic {c : Prop} [Decidable c] {s : String} {x : Res α} (h : ¬ c → Outcome x A P) :
    Outcome (if c then .panic s else x) (¬ c ∧ A) (c ∨ P) := by
  by_cases hc : c
  · rw [if_pos hc]; exact (panic s).congr (by simp [hc]) (by simp [hc])
  · rw [if_neg hc]; exact (h hc).congr (by simp [hc]) (by simp [hc])

theorem bind {x : Res α} {f : α → Res β} (h : Outcome x A P) (hf : ∀ a, x = .ok a → Outcome (f a) B Q) :
    Outcome (x >>= f) (A ∧ B) (P ∨ (A ∧ Q)) := by
  cases x with
  | ok a =>
    have := h.of_ok a rfl
    exact (hf a rfl).congr (by simp [this.1]) (by simp [this.1, this.2])
  | err s =>
    have ha : ¬ A := fun ha => by cases h.1 ha
    have hp : ¬ P := fun ha => by cases h.2.1 ha
    exact (err s).congr (by simp [ha]) (by simp [ha, hp])
  | panic s =>
    have ha : ¬ A := fun ha => by cases h.1 ha
    have hp : P := Classical.byContradiction fun hp => by
      obtain ⟨s, hs⟩ := h.2.2 ha hp
      cases hs
    exact (panic s).congr (by simp [ha]) (by simp [hp])

/-- A check without panics. -/
theorem check {x : Res Unit} (h1 : x = .ok () ↔ A) (h2 : x.isPanic = false) : Outcome x A False := by
  refine ⟨fun ha => by rw [h1.2 ha]; rfl, False.elim, fun ha _ => ?_⟩
  cases x with
  | ok a => exact (ha (h1.1 rfl)).elim
  | err s => exact ⟨s, rfl⟩
  | panic s => cases h2

theorem map {x : Res α} (h : Outcome x A P) (f : α → β) : Outcome (do return f (← x)) A P := by
  cases x with
  | ok a => exact ⟨h.1, h.2.1, fun a p => by obtain ⟨s, hs⟩ := h.2.2 a p; cases hs⟩
  | err s => exact ⟨h.1, h.2.1, fun a p => ⟨s, rfl⟩⟩
  | panic s => exact ⟨h.1, h.2.1, fun a p => by obtain ⟨s, hs⟩ := h.2.2 a p; cases hs⟩

end Outcome

variable {b : Builder}

theorem missing_iff (hr : Reachable b) (u : Nat) : (b.glyphData.get u).isNone = true ↔ u ∉ b.glyphOrder := by
  rw [← hr.inv.sync, Option.isNone_iff_eq_none]
  exact GoMap.get_eq_none

theorem date_outcome (d : DateModel.Date) (f : Builder) : Outcome (do
    let ok ← d.isValid
    if !ok then .err "invalid date" else return f) (DateOk d) (d.month = 0 ∧ d.day = 0) := by
  obtain ⟨h1, h2⟩ := C08.isValid_partial d
  by_cases h : d.month = 0 ∧ d.day = 0
  · have := h1 h
    cases hv : d.isValid <;> rw [hv] at this <;> simp at this
    exact (Outcome.panic _).congr (by simp [DateOk, h]) (by simp [h])
  · obtain ⟨v, hv, hiff⟩ := h2 h
    rw [hv, Res.ok_bind]
    cases v with
    | false =>
      exact (Outcome.err _).congr (by simp [DateOk, h, ← hiff]) (by simp [h])
    | true => exact (Outcome.ok _).congr (by simp [DateOk, h, ← hiff]) (by simp [h])

theorem text_outcome (valid : Bytes → Bool) (limit : Nat) (s : String) (x : Bytes) (f : Builder) : Outcome (do
    if x.length > limit then .err s else
    Builder.checkStringValidity valid x
    return f) (TextOk valid limit x) False := by
  rw [Builder.checkStringValidity]
  refine Outcome.congr (Outcome.ite_err fun _ => (Outcome.ite_err fun _ => Outcome.ite_err fun _ => Outcome.ok ()).bind
    fun _ _ => Outcome.ok f) ?_ (by simp)
  simp [TextOk, UInt8.le_iff_toNat_le]

theorem name_outcome (x : Bytes) : Outcome (Names.validateBasicName x) (NameOk x) False :=
  Outcome.check (C07.accepted_iff x).2 (C07.accepted_iff x).1

theorem options_outcome : ∀ l : List Bytes, Outcome (Builder.checkOptions l) (∀ o ∈ l, NameOk o) False
  | [] => (Outcome.ok ()).congr (by simp) (by simp)
  | o :: l => ((name_outcome o).bind fun _ _ => options_outcome l).congr (by simp) (by simp)

theorem mask_outcome (b : Builder) {mask : Mask.Img} (hm : mask.Addressable) :
    Outcome (b.checkMask mask) (MaskFits b mask) False := by
  obtain ⟨r, hr, h0, h1⟩ := C11.computeRect_tight mask hm
  rw [Builder.checkMask, hr, Res.ok_bind]
  by_cases hv : ∃ x y, mask.alphaAt x y ≠ 0
  · obtain ⟨t1, ⟨ya, t2⟩, ⟨yb, t3⟩, ⟨xa, t4⟩, ⟨xb, t5⟩⟩ := h1 hv
    have he : r.empty = false := by
      obtain ⟨x, y, hxy⟩ := hv
      have := t1 x y hxy
      rw [Bool.eq_false_iff]
      intro h
      simp [Mask.Rect.empty] at h
      omega
    rw [if_neg (by simp [he])]
    refine Outcome.congr (Outcome.ite_err fun _ => Outcome.ite_err fun _ => Outcome.ite_err fun _ => Outcome.ok ())
      ?_ (by simp)
    constructor
    · intro h
      have k1 := h _ _ t4
      have k2 := h _ _ t5
      refine ⟨by omega, by omega, ?_, trivial⟩
      rintro ⟨hw, hx⟩
      have k3 := (h _ _ t2).2.2 hw
      have k4 := (h _ _ t3).2.2 hw
      omega
    · rintro ⟨k1, k2, k3, _⟩ x y hxy
      have := t1 x y hxy
      refine ⟨by omega, by omega, fun hw => ?_⟩
      have : ¬ (r.x0 < 0 ∨ r.x1 > b.monoWidth.toNat) := fun hx => k3 ⟨hw, hx⟩
      omega
  · have hz : ∀ x y, mask.alphaAt x y = 0 := fun x y => Classical.byContradiction fun h => hv ⟨x, y, h⟩
    rw [h0 hz, if_pos (by decide)]
    exact (Outcome.ok ()).congr ⟨fun _ => trivial, fun _ x y h => (h (hz x y)).elim⟩ Iff.rfl

theorem switch_outcome (n : Nat) (l : List Nat) :
    Outcome (Builder.checkSwitch n l []) (l.Nodup ∧ ∀ k ∈ l, k < n) False := by
  rcases checkSwitch_eq n l [] with ⟨h, h1, h2⟩ | ⟨⟨s, h⟩, h1⟩
  · rw [h]; exact (Outcome.ok ()).congr ⟨fun _ => trivial, fun _ => ⟨h1.1, h2⟩⟩ Iff.rfl
  · rw [h]; exact (Outcome.err s).congr ⟨fun k => h1 ⟨⟨k.1, by simp⟩, k.2⟩, False.elim⟩ Iff.rfl

theorem numCasesLoop_outcome (b : Builder) : ∀ (sw : List Nat) (i : Nat) (n : Int), (∀ k ∈ sw, k < b.settings.length) →
    Outcome (b.numCasesLoop sw i n) (∀ j ∈ sw, options b j ≠ 0) (∃ j ∈ sw, options b j = 0)
  | [], i, n, _ => (Outcome.ok n).congr (by simp) (by simp)
  | k :: sw, i, n, h => by
    have hk := h k (List.mem_cons_self ..)
    have e : options b k = b.settings[k].options.length := by simp [options, hk]
    rw [Builder.numCasesLoop, idx_eq_ok.2 (List.getElem?_eq_getElem hk), Res.ok_bind]
    refine Outcome.congr (Outcome.ite_panic fun _ => numCasesLoop_outcome b sw _ _ fun j hj =>
      h j (List.mem_cons_of_mem _ hj)) (by simp [e]) (by simp [e])

theorem numCases_outcome (hr : Reachable b) {k : Nat} (hk : k < b.switches.length) :
    Outcome (b.computeNumSwitchCases k) (∀ j ∈ b.switches[k], options b j ≠ 0) (∃ j ∈ b.switches[k], options b j = 0) := by
  have := hr.calls.switches
  rw [Builder.computeNumSwitchCases, if_neg (by omega), idx_eq_ok.2 (List.getElem?_eq_getElem hk), Res.ok_bind]
  exact numCasesLoop_outcome b _ 0 0 (hr.calls.switchSettings _ (List.getElem_mem hk)).2

theorem pushFalse_outcome : ∀ (n : Nat) {s : Helpers.BoolList} {l : List Bool}, C02.Rep s l →
    Outcome (Builder.pushFalse n s) True False
  | 0, _, _, _ => Outcome.ok _
  | n + 1, s, l, h => by
    obtain ⟨s', h1, h2⟩ := C02.push_rep h false
    rw [Builder.pushFalse, h1, Res.ok_bind]
    exact pushFalse_outcome n h2

theorem ruleInputs_outcome (hr : Reachable b) : ∀ (us : List Nat) {s : Helpers.BoolList} {l : List Bool}
    (es gs : List Nat), C02.Rep s l → Outcome (b.ruleInputs us s es gs)
      (∀ u ∈ us, u ∈ b.glyphOrder ∨ ∃ s, b.glyphSets.get u = some s) False
  | [], _, _, _, _, _ => (Outcome.ok _).congr (by simp) Iff.rfl
  | u :: us, s, l, es, gs, h => by
    rw [Builder.ruleInputs]
    split
    · rename_i hu
      obtain ⟨s', h1, h2⟩ := C02.push_rep h false
      rw [h1, Res.ok_bind]
      have hu' : u ∈ b.glyphOrder := Decidable.not_not.1 fun hn => by
        rw [← missing_iff hr] at hn
        cases hg : b.glyphData.get u <;> simp [hg] at hu hn
      exact (ruleInputs_outcome hr us _ _ h2).congr (by simp [hu']) Iff.rfl
    · rename_i hu
      have hu' : u ∉ b.glyphOrder := by
        rw [← missing_iff hr]
        cases hg : b.glyphData.get u <;> simp [hg] at hu ⊢
      split
      · rename_i hs
        refine (Outcome.err _).congr ⟨fun k => ?_, False.elim⟩ Iff.rfl
        rcases k u (List.mem_cons_self ..) with k | ⟨s, k⟩
        · exact hu' k
        · simp [k] at hs
      · rename_i hs
        obtain ⟨s', h1, h2⟩ := C02.push_rep h true
        rw [h1, Res.ok_bind]
        have hs' : ∃ s, b.glyphSets.get u = some s := by
          cases hg : b.glyphSets.get u with
          | none => simp [hg] at hs
          | some x => exact ⟨x, rfl⟩
        exact (ruleInputs_outcome hr us _ _ h2).congr (by simp [hs']) Iff.rfl

theorem several_cons (g : List Nat) (gs : List (List Nat)) :
    several (g :: gs) = several gs + if 2 ≤ g.length then 1 else 0 := by
  simp only [several, List.countP_cons, decide_eq_true_eq]

theorem several_le (gs : List (List Nat)) : several gs ≤ gs.length := List.countP_le_length

theorem several_eq {gs : List (List Nat)} (h : ∀ g ∈ gs, g ≠ []) :
    several gs = gs.length ↔ ¬ ∃ g ∈ gs, g.length = 1 := by
  rw [several, List.countP_eq_length]
  constructor
  · rintro k ⟨g, hg, h1⟩
    have := k g hg
    simp at this
    omega
  · intro k g hg
    have h1 : g.length ≠ 1 := fun e => k ⟨g, hg, e⟩
    have h0 : g.length ≠ 0 := fun e => h g hg (List.length_eq_zero_iff.1 e)
    simp
    omega

theorem animFlags_outcome : ∀ (groups : List (List Nat)) (flags final : List UInt8),
    Outcome (Builder.animFlagsLoop groups flags final) ((∀ g ∈ groups, g ≠ []) ∧ several groups ≤ flags.length)
      (∃ pre post, groups = pre ++ [] :: post ∧ (∀ g ∈ pre, g ≠ []) ∧ several pre ≤ flags.length) ∧
    ∀ x, Builder.animFlagsLoop groups flags final = .ok x →
      x = (flags.drop (several groups), final ++ flags.take (several groups))
  | [], flags, final => by
    refine ⟨(Outcome.ok _).congr (by simp [several]) (by simp), fun x h => ?_⟩
    rw [← Res.ok.inj h]
    simp [several]
  | g :: gs, flags, final => by
    rw [Builder.animFlagsLoop.eq_def]
    simp only
    by_cases h0 : g.length = 0
    · rw [if_pos h0]
      rw [List.length_eq_zero_iff] at h0
      subst h0
      exact ⟨(Outcome.panic _).congr (by simp) ⟨fun _ => trivial, fun _ => ⟨[], gs, rfl, by simp, by simp [several]⟩⟩,
        fun x h => by cases h⟩
    · have hg : g ≠ [] := fun e => h0 (by rw [e]; rfl)
      have split : ∀ n : Nat, (∃ pre post, g :: gs = pre ++ [] :: post ∧ (∀ g ∈ pre, g ≠ []) ∧ several pre ≤ n) ↔
          ∃ pre post, gs = pre ++ [] :: post ∧ (∀ g ∈ pre, g ≠ []) ∧
            several pre + (if 2 ≤ g.length then 1 else 0) ≤ n := by
        intro n
        constructor
        · rintro ⟨pre, post, h1, h2, h3⟩
          cases pre with
          | nil => cases h1; exact (hg rfl).elim
          | cons a pre =>
            cases h1
            exact ⟨pre, post, rfl, fun g hg => h2 g (List.mem_cons_of_mem _ hg), by rw [← several_cons]; exact h3⟩
        · rintro ⟨pre, post, rfl, h2, h3⟩
          refine ⟨g :: pre, post, rfl, fun x hx => ?_, by rw [several_cons]; exact h3⟩
          rcases List.mem_cons.1 hx with rfl | hx
          · exact hg
          · exact h2 x hx
      rw [if_neg h0, split, several_cons]
      by_cases h1 : g.length = 1
      · rw [if_pos h1, if_neg (by omega), Nat.add_zero]
        obtain ⟨k1, k2⟩ := animFlags_outcome gs flags final
        exact ⟨k1.congr (by simp [hg]) (by simp), k2⟩
      · rw [if_neg h1, if_pos (by omega)]
        cases flags with
        | nil => exact ⟨(Outcome.err _).congr (by simp) (by simp), fun x h => by cases h⟩
        | cons f fs =>
          obtain ⟨k1, k2⟩ := animFlags_outcome gs fs (final ++ [f])
          refine ⟨k1.congr (by simp [hg]) (by simp), fun x h => ?_⟩
          rw [k2 x h]
          simp

theorem switchCases_outcome (final : List UInt8) : ∀ (groups : List (List Nat)) (i : Nat),
    Outcome (Builder.switchCasesLoop final groups i) (groups = [] ∨ i + groups.length ≤ final.length)
      (¬ (groups = [] ∨ i + groups.length ≤ final.length))
  | [], i => (Outcome.ok _).congr (by simp) (by simp)
  | g :: gs, i => by
    rw [Builder.switchCasesLoop]
    by_cases hi : i < final.length
    · rw [idx_eq_ok.2 (List.getElem?_eq_getElem hi), Res.ok_bind]
      have := (switchCases_outcome final gs (i + 1)).map fun rest => (⟨g, final[i]⟩ : MapGroup) :: rest
      have e : (g :: gs = [] ∨ i + (g :: gs).length ≤ final.length) ↔ (gs = [] ∨ i + 1 + gs.length ≤ final.length) := by
        cases gs <;> simp <;> omega
      exact this.congr e (not_congr e)
    · have h : idx final i = .panic "index out of range" := by
        unfold idx
        rw [List.getElem?_eq_none (by omega)]
      rw [h]
      exact (Outcome.panic _).congr (by simp; omega) (by simp; omega)

theorem switchWith_iff {k n : Nat} (hk : k < b.switches.length) : SwitchWith b k n ↔
    (∀ j ∈ b.switches[k], options b j ≠ 0) ∧ combinations (b.switches[k].map (options b)) % 18446744073709551616 = n ∧
      n < 9223372036854775808 := by
  simp [SwitchWith, List.getElem?_eq_getElem hk]

theorem switchWithout_iff {k : Nat} (hk : k < b.switches.length) : SwitchWithout b k ↔
    ∃ j ∈ b.switches[k], options b j = 0 := by
  simp [SwitchWithout, List.getElem?_eq_getElem hk]

theorem SwitchWith.lt {k n : Nat} (h : SwitchWith b k n) : k < b.switches.length := by
  obtain ⟨sw, h, _⟩ := h
  exact (List.getElem?_eq_some_iff.1 h).1

theorem SwitchWithout.lt {k : Nat} (h : SwitchWithout b k) : k < b.switches.length := by
  obtain ⟨sw, h, _⟩ := h
  exact (List.getElem?_eq_some_iff.1 h).1

/-- The checks of both methods for switches. -/
theorem switched_outcome (hr : Reachable b) {c : Int} {k len : Nat} {rest : Res Builder} {A P : Prop}
    (h : SwitchWith b k len → Outcome rest A P) : Outcome (do
      if c < 32 then .err "can't map code points before ' ' (space)" else
      if k ≥ 254 then .panic "MapWithSwitch expects a map switch < 254" else
      if k ≥ b.switches.length then .err "can't map with undefined switch" else
      let n ← b.computeNumSwitchCases k
      if (len : Int) ≠ n then .err "switch expects another number of glyph groups" else rest)
    (32 ≤ c ∧ k < 254 ∧ SwitchWith b k len ∧ A)
    (32 ≤ c ∧ (254 ≤ k ∨ SwitchWithout b k ∨ (SwitchWith b k len ∧ P))) := by
  by_cases hk : k < b.switches.length
  · have h254 := hr.calls.switches
    refine Outcome.congr (Outcome.ite_err fun _ => Outcome.ite_panic fun _ => Outcome.ite_err fun _ =>
      (numCases_outcome hr hk).bind (B := (combinations (b.switches[k].map (options b)) % 18446744073709551616 = len ∧ len < 9223372036854775808) ∧ A)
        (Q := (combinations (b.switches[k].map (options b)) % 18446744073709551616 = len ∧ len < 9223372036854775808) ∧ P) fun n hn => ?_) ?_ ?_
    · obtain ⟨sw, e1, e2, e3, e4⟩ := numCases_ok (by omega) hn hr.inv.toKept.switches
      rw [List.getElem?_eq_getElem hk, Option.some.injEq] at e1
      subst e1
      have e5 : (¬ (len : Int) ≠ n) ↔ _ := Decidable.not_not.trans ((Eq.comm.trans (by rw [e4])).trans
        (wrapInt_eq_nat (m := combinations (b.switches[k].map (options b))) (k := len)))
      refine Outcome.congr (Outcome.ite_err fun hl => h ?_) (by rw [e5]) (by rw [e5])
      rw [switchWith_iff hk]
      exact ⟨fun j hj => (e3 j hj).2, e5.1 hl⟩
    · rw [switchWith_iff hk]
      simp only [Int.not_lt, ge_iff_le, Nat.not_le]
      constructor
      · rintro ⟨h1, h2, ⟨h3, h4⟩, h5⟩
        exact ⟨h1, h2, hk, h3, h4, h5⟩
      · rintro ⟨h1, h2, _, h3, h4, h5⟩
        exact ⟨h1, h2, ⟨h3, h4⟩, h5⟩
    · rw [switchWith_iff hk, switchWithout_iff hk]
      simp only [Int.not_lt, ge_iff_le, Nat.not_le]
      constructor
      · rintro ⟨h1, h2 | h2 | ⟨⟨h3, h4⟩, h5⟩⟩
        · exact ⟨h1, .inl h2⟩
        · exact ⟨h1, .inr ⟨hk, .inl h2⟩⟩
        · exact ⟨h1, .inr ⟨hk, .inr ⟨h3, h4, h5⟩⟩⟩
      · rintro ⟨h1, h2 | ⟨_, h2 | ⟨h3, h4, h5⟩⟩⟩
        · exact ⟨h1, .inl h2⟩
        · exact ⟨h1, .inr (.inl h2)⟩
        · exact ⟨h1, .inr (.inr ⟨⟨h3, h4⟩, h5⟩)⟩
  · have h1 : ¬ SwitchWith b k len := fun h => hk h.lt
    have h2 : ¬ SwitchWithout b k := fun h => hk h.lt
    refine Outcome.congr (Outcome.ite_err fun _ => Outcome.ite_panic fun _ => ?_) (A := ¬ c < 32 ∧ ¬ k ≥ 254 ∧ False)
      (P := ¬ c < 32 ∧ (k ≥ 254 ∨ False)) (by simp [h1]) (by simp [h1, h2])
    rw [if_pos (by omega)]
    exact Outcome.err _

theorem mapWithSwitch_outcome (hr : Reachable b) (c : Int) (k : Nat) (groups : List (List Nat)) (flags : List UInt8) :
    Outcome (b.mapWithSwitch c k groups flags) (Method.Accepts b (.mapWithSwitch c k groups flags))
      (Method.Panics b (.mapWithSwitch c k groups flags)) := by
  rw [Builder.mapWithSwitch]
  refine switched_outcome hr fun hw => ?_
  obtain ⟨k1, k2⟩ := animFlags_outcome groups flags []
  refine Outcome.congr (k1.bind (B := flags.length ≤ several groups ∧ groups.length ≤ several groups)
    (Q := flags.length ≤ several groups ∧ ¬ groups.length ≤ several groups) fun x hx => ?_) ?_ ?_
  · rw [k2 x hx]
    have h1 := (k1.of_ok x hx).1.2
    refine Outcome.congr (Outcome.ite_err fun hd => (switchCases_outcome _ groups 0).bind (B := True) (Q := False)
      fun _ _ => Outcome.ok _) ?_ ?_
    · cases groups <;> simp <;> omega
    · cases groups <;> simp <;> omega
  · have := several_le groups
    constructor
    · rintro ⟨h1, h2⟩
      have : several groups = groups.length := by
        rw [several, List.countP_eq_length]
        intro g hg
        simpa using h1 g hg
      refine ⟨⟨fun g hg e => ?_, by omega⟩, by omega, by omega⟩
      have := h1 g hg
      rw [e] at this
      simp at this
    · rintro ⟨⟨h1, h2⟩, h3, h4⟩
      refine ⟨fun g hg => ?_, by omega⟩
      have h5 := List.countP_eq_length.1 (show several groups = groups.length by omega) g hg
      simpa using h5
  · refine or_congr Iff.rfl ?_
    have := several_le groups
    constructor
    · rintro ⟨h1, h2, h3⟩
      have h4 := (not_congr (several_eq h1)).2 (fun h => h h3)
      exact ⟨⟨h1, by omega⟩, by omega, by omega⟩
    · rintro ⟨⟨h1, h2⟩, h3, h4⟩
      refine ⟨h1, by omega, Classical.byContradiction fun h => ?_⟩
      have := (several_eq h1).2 h
      omega

theorem find_outcome {l : List Nat} {p : Nat → Bool} {s : String} {f : Nat → Res (Builder × Nat)}
    (hf : ∀ u, Outcome (f u) True False) :
    Outcome (match l.find? p with
      | none => .err s
      | some u => f u) (∃ u ∈ l, p u = true) False := by
  cases h : l.find? p with
  | none =>
    rw [List.find?_eq_none] at h
    exact (Outcome.err s).congr ⟨fun ⟨u, hu, hp⟩ => h u hu hp, False.elim⟩ Iff.rfl
  | some u => exact (hf u).congr ⟨fun _ => trivial, fun _ => ⟨u, List.mem_of_find?_eq_some h, List.find?_some h⟩⟩ Iff.rfl

/-- The outcome of every call. -/
theorem Method.outcome (hr : Reachable b) (m : Method) (hm : m.Plain) : Outcome (m.call b) (m.Accepts b) (m.Panics b) := by
  cases m with
  | setFirstVerDate d => exact date_outcome d _
  | setMajorVerDate d => exact date_outcome d _
  | setMinorVerDate d => exact date_outcome d _
  | setName v x => exact text_outcome v 255 _ x _
  | setFamily v x => exact text_outcome v 255 _ x _
  | setAuthor v x => exact text_outcome v 255 _ x _
  | setAbout v x => exact text_outcome v 65535 _ x _
  | setVertLineWidth v =>
    refine Outcome.congr (Outcome.ite_err fun _ => Outcome.ite_err fun _ => Outcome.ok _) ?_ (by simp [Panics])
    cases hb : b.hasVertLayout <;> simp [Accepts, hb]
  | setVertLineGap v =>
    refine Outcome.congr (Outcome.ite_err fun _ => Outcome.ok _) ?_ (by simp [Panics])
    cases hb : b.hasVertLayout <;> simp [Accepts, hb]
  | addGlyph rolls mask =>
    refine Outcome.map (α := Builder × Nat) ?_ Prod.fst
    rw [Builder.addGlyph]
    refine Outcome.congr (Outcome.ite_err fun _ => (mask_outcome b (mask := mask) ?_).bind fun _ _ =>
      find_outcome fun _ => Outcome.ok _) ?_ (by simp [Panics])
    · intro x y h
      have := hm x y h.1 h.2.1 h.2.2.1 h.2.2.2
      exact ⟨this.1, by have := this.2; simp only [Mask.Img.at]; omega⟩
    · rw [Accepts, ← hr.inv.sync]
      simp only [GoMap.keys, List.length_map, FontModel.maxGlyphs, FontModel.glyphMissing, ge_iff_le, Nat.not_le,
        Bool.and_eq_true, Option.isNone_iff_eq_none, GoMap.get_eq_none, bne_iff_ne]
  | setGlyphPlacement u p =>
    show Outcome (b.setGlyphPlacement u p) _ _
    rw [Builder.setGlyphPlacement]
    have := missing_iff hr u
    cases h : b.glyphData.get u with
    | none => exact (Outcome.err _).congr (by simpa [Accepts, h] using this) Iff.rfl
    | some g => exact (Outcome.ok _).congr (by simpa [Accepts, h] using this) Iff.rfl
  | setGlyphName u x =>
    show Outcome (b.setGlyphName u x) _ _
    rw [Builder.setGlyphName]
    have := missing_iff hr u
    cases h : b.glyphData.get u with
    | none =>
      have hu : u ∉ b.glyphOrder := by simpa [h] using this
      exact (Outcome.err _).congr (by simp [Accepts, hu]) Iff.rfl
    | some g =>
      have hu : u ∈ b.glyphOrder := by simpa [h] using this
      exact Outcome.congr ((name_outcome x).bind fun _ _ => Outcome.ok _) (by simp [Accepts, hu]) (by simp [Panics])
  | addDye x a =>
    obtain ⟨h1, h2⟩ := C39.addDye_exact b x a
    by_cases h : x ∉ sectionNames b ∧ (sectionSizes b).sum + a.length ≤ 255
    · show Outcome (b.addDye x a) _ _
      rw [h1 h]
      exact (Outcome.ok _).congr ⟨fun _ => trivial, fun _ => h⟩ Iff.rfl
    · obtain ⟨s, hs⟩ := h2 h
      show Outcome (b.addDye x a) _ _
      rw [hs]
      exact (Outcome.err s).congr ⟨h, False.elim⟩ Iff.rfl
  | addPalette x a =>
    obtain ⟨h1, h2⟩ := C39.addPalette_exact b x a
    by_cases h : x ∉ sectionNames b ∧ (sectionSizes b).sum + a.length ≤ 255
    · show Outcome (b.addPalette x a) _ _
      rw [h1 h]
      exact (Outcome.ok _).congr ⟨fun _ => trivial, fun _ => h⟩ Iff.rfl
    · obtain ⟨s, hs⟩ := h2 h
      show Outcome (b.addPalette x a) _ _
      rw [hs]
      exact (Outcome.err s).congr ⟨h, False.elim⟩ Iff.rfl
  | addSetting x o =>
    refine Outcome.map (α := Builder × Nat) ?_ Prod.fst
    rw [Builder.addSetting]
    refine Outcome.congr ((name_outcome x).bind fun _ _ => (options_outcome o).bind fun _ _ => Outcome.ite_err fun _ =>
      Outcome.ite_err fun _ => Outcome.ite_err fun _ => Outcome.ok _) ?_ (by simp [Panics])
    simp [Accepts]
  | addSwitch l =>
    refine Outcome.map (α := Builder × Nat) ?_ Prod.fst
    rw [Builder.addSwitch]
    refine Outcome.congr (Outcome.ite_err fun _ => Outcome.ite_err fun _ =>
      (switch_outcome b.settings.length l).bind fun _ _ => Outcome.ok _) ?_ (by simp [Panics])
    simp only [Accepts, not_or, Nat.not_lt, gt_iff_lt, ge_iff_le, Nat.not_le, and_true]
    constructor
    · rintro ⟨h1, h2, h3, h4, h5⟩; exact ⟨⟨h1, h2⟩, h3, h4, h5⟩
    · rintro ⟨⟨h1, h2⟩, h3, h4, h5⟩; exact ⟨h1, h2, h3, h4, h5⟩
  | map c u =>
    refine Outcome.congr (Outcome.ite_err fun _ => Outcome.ite_err fun _ => Outcome.ok _) ?_ (by simp [Panics])
    rw [missing_iff hr]
    simp [Accepts]
  | mapGroup c f us =>
    refine Outcome.congr (Outcome.ite_err fun _ => Outcome.ite_err fun _ => Outcome.ite_err fun _ => Outcome.ite_err
      fun _ => Outcome.ok _) ?_ (by simp [Panics])
    simp only [Accepts, Int.not_lt, Nat.not_lt, gt_iff_lt, List.any_eq_true, missing_iff hr, not_exists, not_and,
      Decidable.not_not, and_true]
  | mapWithSwitchSingles c k us =>
    show Outcome (b.mapWithSwitchSingles c k us) _ _
    rw [Builder.mapWithSwitchSingles]
    exact (switched_outcome hr fun _ => Outcome.ok _).congr (by simp [Accepts]) (by simp [Panics])
  | mapWithSwitch c k gs f => exact mapWithSwitch_outcome hr c k gs f
  | createGlyphSet u =>
    refine Outcome.map (α := Builder × Nat) ?_ Prod.fst
    refine Outcome.congr (Outcome.ite_err fun _ => Outcome.ite_err fun _ => Outcome.ok _) ?_ (by simp [Panics])
    simp [Accepts]
  | addGlyphSetRange u x y =>
    show Outcome (b.addGlyphSetRange u x y) _ _
    rw [Builder.addGlyphSetRange]
    cases h : b.glyphSets.get u with
    | none => exact (Outcome.err _).congr (by simp [Accepts, h]) Iff.rfl
    | some s =>
      refine Outcome.congr (Outcome.ite_err fun _ => Outcome.ite_err fun _ => Outcome.ite_err fun _ => Outcome.ite_err
        fun _ => Outcome.ok _) ?_ (by simp [Panics])
      simp only [Accepts, h, missing_iff hr, Option.some.injEq, exists_eq_left', ge_iff_le, Nat.not_le, Decidable.not_not,
        and_true, List.any_eq_true, decide_eq_true_eq, not_exists, not_and]
      refine and_congr Iff.rfl (and_congr Iff.rfl (and_congr Iff.rfl ?_))
      constructor
      · rintro h1 r hr h2 h3
        exact h1 (by rw [← h2, ← h3]; exact hr)
      · exact fun h1 h2 => h1 _ h2 rfl rfl
  | addGlyphSetListGlyph u x =>
    show Outcome (b.addGlyphSetListGlyph u x) _ _
    rw [Builder.addGlyphSetListGlyph]
    cases h : b.glyphSets.get u with
    | none => exact (Outcome.err _).congr (by simp [Accepts, h]) Iff.rfl
    | some s =>
      refine Outcome.congr (Outcome.ite_err fun _ => Outcome.ite_err fun _ => Outcome.ite_err fun _ => Outcome.ok _) ?_
        (by simp [Panics])
      simp only [Accepts, h, missing_iff hr, Option.some.injEq, exists_eq_left', ge_iff_le, Nat.not_le, Decidable.not_not,
        and_true]
  | createRuneSet u =>
    refine Outcome.map (α := Builder × Nat) ?_ Prod.fst
    rw [Builder.createRuneSet, hr.calls.runeSets, if_neg (by decide)]
    refine Outcome.congr (Outcome.ite_err fun _ => Outcome.panic _) (by simp [Accepts]) ?_
    simp [Panics]
  | addRuneSetRange u x y =>
    show Outcome (b.addRuneSetRange u x y) _ _
    rw [Builder.addRuneSetRange, hr.calls.runeSets]
    exact Outcome.err _
  | addRuneSetListRune u x =>
    show Outcome (b.addRuneSetListRune u x) _ _
    rw [Builder.addRuneSetListRune, hr.calls.runeSets]
    exact Outcome.err _
  | addSimpleUtf8RewriteRule c s =>
    show Outcome (b.addSimpleUtf8Rule c s) _ _
    rw [Builder.addSimpleUtf8Rule]
    refine Outcome.congr (Outcome.ite_err fun _ => Outcome.ite_err fun _ => (pushFalse_outcome s.length empty_rep).bind
      fun _ _ => Outcome.ok _) ?_ (by simp [Panics])
    simp only [Accepts, and_true]
    omega
  | addGlyphRewriteRule hl bl tl i o =>
    show Outcome (b.addGlyphRule hl bl tl i o) _ _
    rw [Builder.addGlyphRule]
    refine Outcome.congr (Outcome.ite_err fun _ => Outcome.ite_err fun _ => Outcome.ite_err fun _ =>
      (ruleInputs_outcome hr i [] [] empty_rep).bind fun _ _ => Outcome.ok _) ?_ (by simp [Panics])
    simp only [Accepts, List.any_eq_true, missing_iff hr, not_exists, not_and, Decidable.not_not, and_true, u8]
    have h1 := hl.toNat_lt
    have h2 := bl.toNat_lt
    have h3 := tl.toNat_lt
    constructor
    · rintro ⟨k1, k2, k3, k4⟩; exact ⟨by omega, by omega, k3, k4⟩
    · rintro ⟨k1, k2, k3, k4⟩; exact ⟨by omega, by omega, k3, k4⟩
  | build => exact hm.elim
  | parseEditionData => exact hm.elim
  | _ => exact Outcome.ok _

end Spec
