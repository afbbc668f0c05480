import Verif.Lemmas.EditionRun
import Verif.Lemmas.Edition
import Verif.Lemmas.Reachable
import Verif.Lemmas.ParseStream
import Verif.Spec.Exported

/-! # Edition data: the whole method -/

namespace EditionModel
open Go ParseBuf ParseBuf.Prog BuilderModel Spec Ed
attribute [local irreducible] FontModel.maxFontDataSize
variable {D : Bytes} {e e' : Editor}

theorem get_clear : ∀ (m : GoMap (Nat × Nat) KernPair) (key : Nat × Nat),
    (clearClasses m).get key = (m.get key).map fun p => { p with cls := 0 }
  | [], _ => rfl
  | (k, v) :: m, key => by
    have ih := get_clear m key
    unfold clearClasses at ih ⊢
    simp only [List.map_cons, GoMap.get]
    split
    · rfl
    · exact ih

theorem get_setClass {m : GoMap (Nat × Nat) KernPair} {k key : Nat × Nat} {c : Nat} :
    (setClass m k c).get key = if k = key then some ⟨c, ((m.get key).map (·.value)).getD 0⟩ else m.get key := by
  unfold setClass
  split_ifs with h
  · subst h
    cases hm : m.get k with
    | some p => simp [GoMap.get_set_self]
    | none => simp [GoMap.get_set_self]
  · cases hm : m.get k with
    | some p => simp only; exact GoMap.get_set_ne _ _ (Ne.symm h)
    | none => simp only; exact GoMap.get_set_ne _ _ (Ne.symm h)

/-- The pairs while the table is read. -/
def Held (before after : GoMap (Nat × Nat) KernPair) (c : Nat × Nat → Nat) : Prop :=
  ∀ key, after.get key = match before.get key with
    | some p => some { p with cls := c key }
    | none => if c key = 0 then none else some ⟨c key, 0⟩

theorem held_fold {order : List Nat} {before : GoMap (Nat × Nat) KernPair} : ∀ (t : List PairClass) (m) (c),
    (∀ p ∈ t, p.Valid order.length) → Held before m c →
    Held before (t.foldl (classStep' order) m) fun key => t.foldl
      (fun c p => if (order[p.first]?, order[p.second]?) = (some key.1, some key.2) then p.cls else c) (c key)
  | [], _, _, _, h => h
  | p :: t, m, c, hv, h => by
    obtain ⟨⟨_, _, hc, _⟩, h1, h2⟩ := hv p (by simp)
    refine held_fold t (classStep' order m p)
      (fun key => if (order[p.first]?, order[p.second]?) = (some key.1, some key.2) then p.cls else c key)
      (fun q hq => hv q (by simp [hq])) ?_
    intro key
    have hk := h key
    rw [classStep', get_setClass, hk]
    simp only [List.getD_eq_getElem?_getD, List.getElem?_eq_getElem h1, List.getElem?_eq_getElem h2, Option.getD_some,
      Prod.mk.injEq, Option.some.injEq]
    by_cases hx : (order[p.first], order[p.second]) = key
    · subst hx
      have h0 : p.cls ≠ 0 := by omega
      simp only [and_self, if_true, if_neg h0]
      split
      · simp
      · split <;> rfl
    · have : ¬ (order[p.first] = key.1 ∧ order[p.second] = key.2) := fun ⟨a, b⟩ => hx (by rw [a, b])
      rw [if_neg hx]
      simp only [if_neg this]

theorem classified_fold {order : List Nat} {before : GoMap (Nat × Nat) KernPair} {t : List PairClass}
    (hv : ∀ p ∈ t, p.Valid order.length) :
    Classified order t before (t.foldl (classStep' order) (clearClasses before)) := by
  refine held_fold t (clearClasses before) (fun _ => 0) hv ?_
  intro key
  rw [get_clear]
  cases before.get key <;> rfl

theorem loaded_applied {x : EditionData} (h : x.Valid e.builder) : Loaded x e (applied x (clearEditionData e)) where
  categories := rfl
  classNames := rfl
  kernClasses := rfl
  horz := classified_fold h.horz.2
  vert := classified_fold h.vert.2
  conditions := rfl
  others := rfl

theorem noEdition_clear (e : Editor) : NoEdition (clearEditionData e) where
  categories := rfl
  classNames := rfl
  kernClasses := rfl
  horz := by
    intro p hp
    obtain ⟨q, _, rfl⟩ := List.mem_map.1 hp
    rfl
  vert := by
    intro p hp
    obtain ⟨q, _, rfl⟩ := List.mem_map.1 hp
    rfl
  conditions := by
    intro n hn
    obtain ⟨q, _, rfl⟩ := List.mem_map.1 hn
    rfl

theorem clear_valid {x : EditionData} : x.Valid (clearEditionData e).builder ↔ x.Valid e.builder :=
  ⟨fun h => ⟨⟨h.head.1, h.head.2, h.head.3, h.head.4, h.head.5⟩, ⟨h.horz.1, h.horz.2⟩, ⟨h.vert.1, h.vert.2⟩, h.numConditions, h.conditions⟩,
   fun h => ⟨⟨h.head.1, h.head.2, h.head.3, h.head.4, h.head.5⟩, ⟨h.horz.1, h.horz.2⟩, ⟨h.vert.1, h.vert.2⟩, h.numConditions, h.conditions⟩⟩

theorem clear_missing : MissingGlyph (clearEditionData e).builder D ↔ MissingGlyph e.builder D := by
  constructor
  · rintro ⟨x, n, t, p, h, hb, hx⟩
    exact ⟨x, n, t, p, ⟨h.1, h.2, h.3, h.4, h.5⟩, ⟨hb.1, hb.2, hb.3, hb.4⟩, hx.imp id fun g => ⟨⟨g.1.1, g.1.2⟩, g.2⟩⟩
  · rintro ⟨x, n, t, p, h, hb, hx⟩
    exact ⟨x, n, t, p, ⟨h.1, h.2, h.3, h.4, h.5⟩, ⟨hb.1, hb.2, hb.3, hb.4⟩, hx.imp id fun g => ⟨⟨g.1.1, g.1.2⟩, g.2⟩⟩

/-- The data starts with contents that belong to the builder. -/
theorem starts_iff (hr : e.conditionNames.length = e.builder.conditions.length) {x y : EditionData}
    (hx : x.Valid e.builder) (hy : y.Valid e.builder) (px : x.bytes <+: D) (py : y.bytes <+: D) :
    x.bytes.length = y.bytes.length ∧ applied x (clearEditionData e) = applied y (clearEditionData e) := by
  have hruns := fun i' d' e' => editionBody_runs (D := D) (d := 0) (i' := i') (d' := d') (e' := e') (u := ())
    (e := clearEditionData e) rfl rfl rfl (by simpa [clearEditionData] using hr)
  simp only [clear_valid, ← prefix_at0] at hruns
  have h1 := (hruns _ _ _).2 ⟨x, hx, px, rfl, rfl, rfl⟩
  have h2 := (hruns _ _ _).2 ⟨y, hy, py, rfl, rfl, rfl⟩
  unfold Ed.Runs at h1 h2
  rw [h1] at h2
  simp only [Res.ok.injEq, Prod.mk.injEq, true_and, and_true] at h2
  exact ⟨h2.2, h2.1⟩

/-- The outcomes on the data of a reader. -/
theorem editionStream_outcome (junk : Nat → UInt8) {r : Reader} (hr : r.Serves D)
    (hD : D.length ≤ FontModel.maxFontDataSize) (hn : Named e) :
    (∃ x : EditionData, x.Valid e.builder ∧ x.bytes <+: D ∧ ¬ MissingGlyph e.builder D ∧
      (parseEditionStream junk r (clearEditionData e) = .ok (none, applied x (clearEditionData e)) ∨
        (parseEditionStream junk r (clearEditionData e) = .panic "broken code" ∧ x.bytes.length < D.length))) ∨
    (MissingGlyph e.builder D ∧ (¬ ∃ x : EditionData, x.Valid e.builder ∧ x.bytes <+: D) ∧
      parseEditionStream junk r (clearEditionData e) = .panic "index out of range") ∨
    ((¬ MissingGlyph e.builder D) ∧ (¬ ∃ x : EditionData, x.Valid e.builder ∧ x.bytes <+: D) ∧
      ∃ m e', parseEditionStream junk r (clearEditionData e) = .ok (some m, e')) := by
  have hruns := fun i' d' e' => editionBody_runs (D := D) (d := 0) (i' := i') (d' := d') (e' := e') (u := ())
    (e := clearEditionData e) rfl rfl rfl (by simpa [clearEditionData] using hn.1)
  have hpan := fun m => editionBody_panics (D := D) (d := 0) (m := m)
    (e := clearEditionData e) rfl rfl rfl (by simpa [clearEditionData] using hn.1) (by exact hn.2)
  simp only [clear_valid, clear_missing, ← prefix_at0] at hruns hpan
  have hplain := editionBody_plain
  unfold parseEditionStream
  rcases exec_plain junk hD _ (hplain.plain _) _ 0 0 (FInv.init hr) with ⟨⟨a, e1⟩, i', d', s', hf, he, hi⟩ | ⟨m, hf, he⟩ | ⟨m, hf, he⟩
  · have hnm : ¬ MissingGlyph e.builder D := fun hm => by
      have := (hpan _).2 ⟨rfl, hm⟩
      unfold Ed.Panics at this
      rw [this] at hf; cases hf
    simp only [he, Res.ok_bind]
    cases a with
    | ok u =>
      obtain ⟨x, hx, hp, rfl, rfl, rfl⟩ := (hruns i' d' e1).1 hf
      refine Or.inl ⟨x, hx, hp, hnm, ?_⟩
      rcases ensureEOF_flat junk hD hi with ⟨s'', h⟩ | ⟨h, _, hl⟩
      · rw [h]; exact Or.inl rfl
      · rw [h]
        exact Or.inr ⟨rfl, Nat.lt_of_le_of_lt hi.ile hl⟩
    | error m =>
      refine Or.inr (Or.inr ⟨hnm, ?_, m, _, rfl⟩)
      rintro ⟨x, hx, hp⟩
      have := (hruns _ _ _).2 ⟨x, hx, hp, rfl, rfl, rfl⟩
      unfold Ed.Runs at this
      rw [this] at hf; cases hf
  · exact absurd hf (hplain.noErr _ _ _ _ _)
  · have hm := (hpan m).1 hf
    obtain ⟨rfl, hm⟩ := hm
    refine Or.inr (Or.inl ⟨hm, ?_, ?_⟩)
    · rintro ⟨x, hx, hp⟩
      have := (hruns _ _ _).2 ⟨x, hx, hp, rfl, rfl, rfl⟩
      unfold Ed.Runs at this
      rw [this] at hf; cases hf
    · rw [he]; rfl

/-- The method on a file with the right signature. -/
theorem parseEditionData_file (junk : Nat → UInt8) {first : Ev} {gz : Res Reader}
    (hf : FileWith editionSignature D first gz) :
    ∃ r : Reader, r.Serves D ∧ parseEditionData junk first gz e = parseEditionStream junk r (clearEditionData e) := by
  obtain ⟨rfl, r, rfl, hr⟩ := hf
  exact ⟨r, hr, rfl⟩

/-- What the steps keep of the pairs. -/
def KeepsPairs (order : List Nat) (before after : GoMap (Nat × Nat) KernPair) : Prop :=
  ∀ key, match before.get key with
    | some p => ∃ c, after.get key = some { p with cls := c }
    | none => after.get key = none ∨ ∃ c, after.get key = some ⟨c, 0⟩ ∧ key.1 ∈ order ∧ key.2 ∈ order

theorem KeepsPairs.refl {order : List Nat} {m : GoMap (Nat × Nat) KernPair} : KeepsPairs order m m := by
  intro key
  cases h : m.get key with
  | some p => exact ⟨p.cls, rfl⟩
  | none => exact Or.inl rfl

theorem KeepsPairs.clear {order : List Nat} {m m' : GoMap (Nat × Nat) KernPair} (h : KeepsPairs order m m') :
    KeepsPairs order m (clearClasses m') := by
  intro key
  have := h key
  rw [get_clear]
  split
  · rename_i p hp
    rw [hp] at this
    obtain ⟨c, hc⟩ := this
    exact ⟨0, by rw [hc]; rfl⟩
  · rename_i hp
    rw [hp] at this
    rcases this with hc | ⟨c, hc, h1⟩
    · exact Or.inl (by rw [hc]; rfl)
    · exact Or.inr ⟨0, by rw [hc]; rfl, h1⟩

theorem KeepsPairs.set {order : List Nat} {m m' : GoMap (Nat × Nat) KernPair} (h : KeepsPairs order m m') {u v c : Nat}
    (hu : u ∈ order) (hv : v ∈ order) : KeepsPairs order m (setClass m' (u, v) c) := by
  intro key
  have := h key
  rw [get_setClass]
  by_cases hk : (u, v) = key
  · subst hk
    rw [if_pos rfl]
    split
    · rename_i p hp
      rw [hp] at this
      obtain ⟨c', hc⟩ := this
      exact ⟨c, by rw [hc]; rfl⟩
    · rename_i hp
      rw [hp] at this
      rcases this with hc | ⟨c', hc, h1⟩
      · exact Or.inr ⟨c, by rw [hc]; rfl, hu, hv⟩
      · exact Or.inr ⟨c, by rw [hc]; rfl, hu, hv⟩
  · rw [if_neg hk]; exact this

/-- What the steps keep. -/
structure KeepsAll (e e' : Editor) : Prop where
  horz : KeepsPairs e.builder.glyphOrder e.builder.horzKern e'.builder.horzKern
  vert : KeepsPairs e.builder.glyphOrder e.builder.vertKern e'.builder.vertKern
  others : { e'.builder with kernClasses := e.builder.kernClasses, horzKern := e.builder.horzKern, vertKern := e.builder.vertKern } = e.builder

theorem KeepsAll.order (h : KeepsAll e e') : e'.builder.glyphOrder = e.builder.glyphOrder :=
  congrArg (·.glyphOrder) h.others

theorem parseEditionData_keepsAll {junk : Nat → UInt8} {sig : Ev} {gz : Res Reader} {err : Option String}
    (h : parseEditionData junk sig gz e = .ok (err, e')) : KeepsAll e e' := by
  refine parseEditionData_keeps (I := KeepsAll e) (fun _ g => ⟨g.horz.clear, g.vert.clear, g.others⟩) ?_
    ⟨.refl, .refl, rfl⟩ h
  refine editionBody_keeps (fun _ _ g => ⟨g.1, g.2, g.3⟩) (fun _ _ g => ⟨g.1, g.2, g.3⟩) (fun _ _ _ g => ⟨g.1, g.2, g.3⟩)
    (fun _ g => ⟨g.1, g.2, g.3⟩) (fun _ _ _ g _ _ => ⟨g.1, g.2, g.3⟩) ?_ ?_
  · intro e1 u v c g hu hv
    rw [g.order] at hu hv
    exact ⟨g.1.set hu hv, g.2, g.3⟩
  · intro e1 u v c g hu hv
    rw [g.order] at hu hv
    exact ⟨g.1, g.2.set hu hv, g.3⟩

theorem parseEditionData_error {junk : Nat → UInt8} {sig : Ev} {gz : Res Reader} {m : String}
    (h : parseEditionData junk sig gz e = .ok (some m, e')) : NoEdition e' := by
  suffices ∃ e1, e' = clearEditionData e1 by
    obtain ⟨e1, rfl⟩ := this
    exact noEdition_clear e1
  unfold parseEditionData at h
  simp only at h
  split at h
  · cases h; exact ⟨_, rfl⟩
  split at h
  · cases h; exact ⟨_, rfl⟩
  split at h
  · cases h; exact ⟨_, rfl⟩
  · cases h
  · rename_i r
    rw [parseEditionStream, Res.bind_eq_ok] at h
    obtain ⟨⟨⟨x, e1⟩, s⟩, h1, h⟩ := h
    simp only at h
    split at h
    · cases h; exact ⟨_, rfl⟩
    · rw [Res.bind_eq_ok] at h
      obtain ⟨⟨eof, _⟩, _, h⟩ := h
      simp only at h
      split at h
      · cases h; exact ⟨_, rfl⟩
      · cases h

theorem residue_of {order : List Nat} {m m' : GoMap (Nat × Nat) KernPair} (h : KeepsPairs order m m')
    (hn : ∀ p ∈ m', p.2.cls = 0) : Residue order m m' := by
  intro key
  have := h key
  split
  · rename_i p hp
    rw [hp] at this
    obtain ⟨c, hc⟩ := this
    have h0 : c = 0 := hn _ (GoMap.mem_of_get hc)
    rw [hc, h0]
  · rename_i hp
    rw [hp] at this
    rcases this with hc | ⟨c, hc, h1⟩
    · exact Or.inl hc
    · have h0 : c = 0 := hn _ (GoMap.mem_of_get hc)
      exact Or.inr ⟨by rw [hc, h0], h1⟩

theorem parseEditionData_failed {junk : Nat → UInt8} {sig : Ev} {gz : Res Reader} {m : String}
    (h : parseEditionData junk sig gz e = .ok (some m, e')) : Failed e e' :=
  have h1 := parseEditionData_error h
  have h2 := parseEditionData_keepsAll h
  ⟨h1, residue_of h2.1 h1.horz, residue_of h2.2 h1.vert, h2.3⟩

/-- Builders made with the public methods have no conditions. -/
theorem edits_conditions (h : Edits e) : e.conditionNames = [] ∧ e.builder.conditions = [] := by
  refine ⟨?_, h.inv.conditions⟩
  induction h with
  | new h => rfl
  | call _ hc ih => exact ih
  | clear _ ih => simp only [clearEditionData, ih, List.map_nil]
  | parse _ hp ih =>
    refine parseEditionData_keeps (I := fun e => e.conditionNames = [])
      (fun _ g => by simp only [clearEditionData, g, List.map_nil]) ?_ ih hp
    refine editionBody_keeps (fun _ _ h => h) (fun _ _ h => h) ?_ (fun _ h => h) (fun _ _ _ h _ _ => h)
      (fun _ _ _ _ h _ _ => h) (fun _ _ _ _ h _ _ => h)
    intro e i n h
    simp only [h, List.set_nil]

theorem edits_named (h : Edits e) : Named e ∧ e.builder.conditions = [] := by
  suffices e.conditionNames = [] ∧ e.builder.conditions = [] by
    refine ⟨⟨?_, ?_⟩, this.2⟩ <;> simp [this]
  refine edits_conditions h

end EditionModel
