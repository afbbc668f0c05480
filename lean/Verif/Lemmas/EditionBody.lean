import Verif.Lemmas.EditionFlat

/-! # Edition data: the whole body -/

namespace EditionModel
open Go ParseBuf ParseBuf.Prog BuilderModel Spec Ed
variable {α β : Type} {D : Bytes} {i d i' d' : Nat} {e e' : Editor} {b : β}

namespace Ed

theorem step {p : Ed α} {f : α → Ed β} {X : Type} {Q : X → Prop} {val : X → α} {j : X → Nat} {ej : X → Editor}
    (h : ∀ {a i' d' e'}, p.Runs D i d e a i' d' e' ↔ ∃ x, Q x ∧ a = val x ∧ i' = j x ∧ d' = d ∧ e' = ej x) :
    Runs (p >>= f) D i d e b i' d' e' ↔ ∃ x, Q x ∧ Runs (f (val x)) D (j x) d (ej x) b i' d' e' := by
  rw [Runs.bind]
  constructor
  · rintro ⟨a, _, _, _, h1, h2⟩
    obtain ⟨x, hx, rfl, rfl, rfl, rfl⟩ := h.1 h1
    exact ⟨x, hx, h2⟩
  · rintro ⟨x, hx, h2⟩
    exact ⟨_, _, _, _, h.2 ⟨x, hx, rfl, rfl, rfl, rfl⟩, h2⟩

theorem u8_step {f : Nat → Ed β} : Runs (lift readUint8 >>= f) D i d e b i' d' e' ↔
    ∃ v, (v < 256 ∧ At D i (leBytes 1 v)) ∧ Runs (f v) D (i + 1) d e b i' d' e' :=
  step (val := id) (j := fun _ => i + 1) (ej := fun _ => e) (by
    intro a i' d' e'
    rw [Runs.lift, at_u8]
    constructor
    · rintro ⟨⟨h1, h2, rfl, rfl⟩, rfl⟩; exact ⟨_, ⟨h1, h2⟩, rfl, rfl, rfl, rfl⟩
    · rintro ⟨v, ⟨h1, h2⟩, rfl, rfl, rfl, rfl⟩; exact ⟨⟨h1, h2, rfl, rfl⟩, rfl⟩)

theorem u16_step {f : Nat → Ed β} : Runs (lift readUint16 >>= f) D i d e b i' d' e' ↔
    ∃ v, (v < 65536 ∧ At D i (leBytes 2 v)) ∧ Runs (f v) D (i + 2) d e b i' d' e' :=
  step (val := id) (j := fun _ => i + 2) (ej := fun _ => e) (by
    intro a i' d' e'
    rw [Runs.lift, at_u16]
    constructor
    · rintro ⟨⟨h1, h2, rfl, rfl⟩, rfl⟩; exact ⟨_, ⟨h1, h2⟩, rfl, rfl, rfl, rfl⟩
    · rintro ⟨v, ⟨h1, h2⟩, rfl, rfl, rfl, rfl⟩; exact ⟨⟨h1, h2, rfl, rfl⟩, rfl⟩)

theorem u32_step {f : Nat → Ed β} : Runs (lift readUint32 >>= f) D i d e b i' d' e' ↔
    ∃ v, (v < 4294967296 ∧ At D i (leBytes 4 v)) ∧ Runs (f v) D (i + 4) d e b i' d' e' :=
  step (val := id) (j := fun _ => i + 4) (ej := fun _ => e) (by
    intro a i' d' e'
    rw [Runs.lift, at_u32]
    constructor
    · rintro ⟨⟨h1, h2, rfl, rfl⟩, rfl⟩; exact ⟨_, ⟨h1, h2⟩, rfl, rfl, rfl, rfl⟩
    · rintro ⟨v, ⟨h1, h2⟩, rfl, rfl, rfl, rfl⟩; exact ⟨⟨h1, h2, rfl, rfl⟩, rfl⟩)

theorem u64_step {f : Nat → Ed β} : Runs (lift readUint64 >>= f) D i d e b i' d' e' ↔
    ∃ v, (v < 18446744073709551616 ∧ At D i (leBytes 8 v)) ∧ Runs (f v) D (i + 8) d e b i' d' e' :=
  step (val := id) (j := fun _ => i + 8) (ej := fun _ => e) (by
    intro a i' d' e'
    rw [Runs.lift, at_u64]
    constructor
    · rintro ⟨⟨h1, h2, rfl, rfl⟩, rfl⟩; exact ⟨_, ⟨h1, h2⟩, rfl, rfl, rfl, rfl⟩
    · rintro ⟨v, ⟨h1, h2⟩, rfl, rfl, rfl, rfl⟩; exact ⟨⟨h1, h2, rfl, rfl⟩, rfl⟩)

theorem get_step {f : Editor → Ed β} : Runs (get >>= f) D i d e b i' d' e' ↔ Runs (f e) D i d e b i' d' e' := Iff.rfl

theorem bind_assoc' {γ : Type} {p : Ed α} {q : α → Ed β} {f : β → Ed γ} {c : γ} :
    Runs (p >>= fun a => q a >>= f) D i d e c i' d' e' ↔ Runs ((Ed.bind p q) >>= f) D i d e c i' d' e' := by
  have hb : ∀ {b j dj ej}, Runs (Ed.bind p q) D i d e b j dj ej ↔ _ := fun {b j dj ej} => Runs.bind (p := p) (f := q)
  simp only [Runs.bind]
  constructor
  · rintro ⟨a, _, _, _, h1, b, _, _, _, h2, h3⟩
    exact ⟨b, _, _, _, hb.2 ⟨a, _, _, _, h1, h2⟩, h3⟩
  · rintro ⟨b, _, _, _, h1, h3⟩
    obtain ⟨a, _, _, _, h1, h2⟩ := hb.1 h1
    exact ⟨a, _, _, _, h1, b, _, _, _, h2, h3⟩

end Ed

theorem categories_step {n : Nat} {f : Ed β} (hi : i ≤ D.length) (he : e.categories = []) :
    (loop n 0 categoryName >>= fun _ => loop n 0 categorySize >>= fun _ => f).Runs D i d e b i' d' e' ↔
    ∃ l : List (Bytes × Nat), (l.length = n ∧ (∀ c ∈ l, SpacedName c.1 ∧ c.2 < 65536) ∧
      At D i (l.flatMap (fun c => shortStr c.1) ++ l.flatMap fun c => leBytes 2 c.2)) ∧
      f.Runs D (i + (l.flatMap (fun c => shortStr c.1) ++ l.flatMap fun c => leBytes 2 c.2).length) d
        { e with categories := l } b i' d' e' := by
  refine bind_assoc'.trans (step (val := fun _ => ()) (by
    intro a i' d' e'
    rw [categories_runs hi he]
    constructor
    · rintro ⟨l, h1, h2, h3, h4, h5, h6⟩; exact ⟨l, ⟨h1, h2, h3⟩, rfl, h4, h5, h6⟩
    · rintro ⟨l, ⟨h1, h2, h3⟩, _, h4, h5, h6⟩; exact ⟨l, h1, h2, h3, h4, h5, h6⟩))

theorem classes_step {n : Nat} {f : Ed β} (hi : i ≤ D.length) (he : e.classNames = [])
    (hk : e.builder.kernClasses = []) :
    (loop n 0 className >>= fun _ => loop n 0 classValue >>= fun _ => f).Runs D i d e b i' d' e' ↔
    ∃ l : List (Bytes × Int), (l.length = n ∧ (∀ c ∈ l, SpacedName c.1 ∧ -128 ≤ c.2 ∧ c.2 ≤ 127) ∧
      At D i (l.flatMap (fun c => shortStr c.1) ++ l.flatMap fun c => leBytes 1 (c.2 % 256).toNat)) ∧
      f.Runs D (i + (l.flatMap (fun c => shortStr c.1) ++ l.flatMap fun c => leBytes 1 (c.2 % 256).toNat).length) d
        { e with classNames := l.map (·.1), builder := { e.builder with kernClasses := l.map (·.2) } } b i' d' e' := by
  refine bind_assoc'.trans (step (val := fun _ => ()) (by
    intro a i' d' e'
    rw [classes_runs hi he hk]
    constructor
    · rintro ⟨l, h1, h2, h3, h4, h5, h6⟩; exact ⟨l, ⟨h1, h2, h3⟩, rfl, h4, h5, h6⟩
    · rintro ⟨l, ⟨h1, h2, h3⟩, _, h4, h5, h6⟩; exact ⟨l, h1, h2, h3, h4, h5, h6⟩))

theorem horz_step {n : Nat} {f : Ed β} (hi : i ≤ D.length) :
    (loop n 0 (kernPair onHorz) >>= fun _ => f).Runs D i d e b i' d' e' ↔
    ∃ l : List PairClass, (l.length = n ∧ (∀ p ∈ l, p.Valid e.builder.glyphOrder.length) ∧
      At D i (l.flatMap PairClass.bytes)) ∧ f.Runs D (i + (l.flatMap PairClass.bytes).length) d
      { e with builder := onHorz (fun pairs => l.foldl (classStep' e.builder.glyphOrder) pairs) e.builder } b i' d' e' :=
  step (val := fun _ => ()) (by
    intro a i' d' e'
    rw [horz_runs hi]
    constructor
    · rintro ⟨l, h1, h2, h3, h4, h5, h6⟩; exact ⟨l, ⟨h1, h2, h3⟩, rfl, h4, h5, h6⟩
    · rintro ⟨l, ⟨h1, h2, h3⟩, _, h4, h5, h6⟩; exact ⟨l, h1, h2, h3, h4, h5, h6⟩)

theorem vert_step {n : Nat} {f : Ed β} (hi : i ≤ D.length) :
    (loop n 0 (kernPair onVert) >>= fun _ => f).Runs D i d e b i' d' e' ↔
    ∃ l : List PairClass, (l.length = n ∧ (∀ p ∈ l, p.Valid e.builder.glyphOrder.length) ∧
      At D i (l.flatMap PairClass.bytes)) ∧ f.Runs D (i + (l.flatMap PairClass.bytes).length) d
      { e with builder := onVert (fun pairs => l.foldl (classStep' e.builder.glyphOrder) pairs) e.builder } b i' d' e' :=
  step (val := fun _ => ()) (by
    intro a i' d' e'
    rw [vert_runs hi]
    constructor
    · rintro ⟨l, h1, h2, h3, h4, h5, h6⟩; exact ⟨l, ⟨h1, h2, h3⟩, rfl, h4, h5, h6⟩
    · rintro ⟨l, ⟨h1, h2, h3⟩, _, h4, h5, h6⟩; exact ⟨l, h1, h2, h3, h4, h5, h6⟩)

theorem le_len {n v : Nat} (h : At D i (leBytes n v)) : i + n ≤ D.length := by
  have := h.len
  rwa [leBytes_length] at this

theorem editionBody_runs {u : Unit} (h1 : e.categories = []) (h2 : e.classNames = [])
    (h3 : e.builder.kernClasses = []) (h4 : e.conditionNames.length = e.builder.conditions.length) :
    editionBody.Runs D 0 d e u i' d' e' ↔
    ∃ x : EditionData, x.Valid e.builder ∧ At D 0 x.bytes ∧ i' = x.bytes.length ∧ d' = d ∧ e' = applied x e := by
  have hid := e.builder.fontID.toNat_lt
  have hbytes : ∀ x : EditionData, At D 0 x.bytes ↔ At D 0 (leBytes 8 x.fontID ++ (leBytes 1 x.categories.length ++
      ((x.categories.flatMap (fun c => shortStr c.1) ++ x.categories.flatMap fun c => leBytes 2 c.2) ++
      (leBytes 2 x.classes.length ++ ((x.classes.flatMap (fun c => shortStr c.1) ++
        x.classes.flatMap fun c => leBytes 1 (c.2 % 256).toNat) ++
      (leBytes 4 x.horz.length ++ (x.horz.flatMap PairClass.bytes ++ (leBytes 4 x.vert.length ++
      (x.vert.flatMap PairClass.bytes ++ (leBytes 1 x.conditions.length ++
        x.conditions.flatMap shortStr)))))))))) := fun x => by
    simp only [EditionData.bytes, EditionData.headBytes, EditionData.categoryBytes, EditionData.classBytes, tableBytes, List.append_assoc]
  have hlen : ∀ x : EditionData, x.bytes.length = 0 + 8 + 1 +
      (x.categories.flatMap (fun c => shortStr c.1) ++ x.categories.flatMap fun c => leBytes 2 c.2).length + 2 +
      (x.classes.flatMap (fun c => shortStr c.1) ++ x.classes.flatMap fun c => leBytes 1 (c.2 % 256).toNat).length +
      4 + (x.horz.flatMap PairClass.bytes).length + 4 + (x.vert.flatMap PairClass.bytes).length + 1 +
      (x.conditions.flatMap shortStr).length := fun x => by
    simp only [EditionData.bytes, EditionData.headBytes, EditionData.categoryBytes, EditionData.classBytes, tableBytes, List.length_append,
      leBytes_length]
    omega
  simp only [At.append (x := leBytes _ _), At.append (x := List.flatMap _ _),
    At.append (x := List.flatMap _ _ ++ List.flatMap _ _), leBytes_length] at hbytes
  unfold editionBody
  rw [u64_step]
  constructor
  · rintro ⟨id, ⟨b1, a1⟩, r⟩
    rw [get_step, Runs.ite] at r
    rcases r with ⟨_, r⟩ | ⟨hi, r⟩
    · exact absurd r Runs.error
    rw [Classical.not_not] at hi
    rw [u8_step] at r
    obtain ⟨n1, ⟨b2, a2⟩, r⟩ := r
    rw [categories_step (le_len a2) h1] at r
    obtain ⟨cats, ⟨rfl, b3, a3⟩, r⟩ := r
    rw [u16_step] at r
    obtain ⟨n2, ⟨b4, a4⟩, r⟩ := r
    replace r := (classes_step (le_len a4) (by exact h2) (by exact h3)).1 r
    obtain ⟨classes, ⟨rfl, b5, a5⟩, r⟩ := r
    rw [u32_step] at r
    obtain ⟨n3, ⟨b6, a6⟩, r⟩ := r
    rw [horz_step (le_len a6)] at r
    obtain ⟨horz, ⟨rfl, b7, a7⟩, r⟩ := r
    rw [u32_step] at r
    obtain ⟨n4, ⟨b8, a8⟩, r⟩ := r
    rw [vert_step (le_len a8)] at r
    obtain ⟨vert, ⟨rfl, b9, a9⟩, r⟩ := r
    rw [u8_step] at r
    obtain ⟨n5, ⟨b10, a10⟩, r⟩ := r
    rw [Runs.ite] at r
    rcases r with ⟨_, r⟩ | ⟨hc, r⟩
    · exact absurd r Runs.error
    rw [get_step, Runs.ite] at r
    rcases r with ⟨_, r⟩ | ⟨hn, r⟩
    · rcases Runs.ite.1 r with ⟨_, r⟩ | ⟨_, r⟩
      · exact absurd r Runs.panic
      · exact absurd r Runs.error
    rw [Classical.not_not] at hn
    replace r := (conditions_runs (le_len a10) (by exact h4.trans hn.symm)).1 r
    obtain ⟨conds, rfl, b11, a11, hi', hd', he'⟩ := r
    exact ⟨⟨id, cats, classes, horz, vert, conds⟩,
      ⟨⟨hi, b2, b3, b4, b5⟩, ⟨b6, b7⟩, ⟨b8, b9⟩, ⟨hn, by simp only; omega⟩, b11⟩,
      (hbytes _).2 ⟨a1, a2, At.append.1 a3, a4, At.append.1 a5, a6, a7, a8, a9, a10, a11⟩,
      hi'.trans (hlen ⟨id, cats, classes, horz, vert, conds⟩).symm, hd', he'⟩
  · rintro ⟨⟨id, cats, classes, horz, vert, conds⟩,
      ⟨⟨hi, b2, b3, b4, b5⟩, ⟨b6, b7⟩, ⟨b8, b9⟩, ⟨hn, hc⟩, b11⟩, a, hi', hd', he'⟩
    obtain ⟨a1, a2, a3, a4, a5, a6, a7, a8, a9, a10, a11⟩ := (hbytes _).1 a
    rw [hlen] at hi'
    simp only at hi b2 b3 b4 b5 b6 b7 b8 b9 hn hc b11 a2 a4 a6 a8 a10
    refine ⟨id, ⟨by omega, a1⟩, ?_⟩
    rw [get_step, if_neg (by rw [Classical.not_not]; exact hi), u8_step]
    refine ⟨_, ⟨b2, a2⟩, ?_⟩
    rw [categories_step (le_len a2) h1]
    refine ⟨_, ⟨rfl, b3, At.append.2 a3⟩, ?_⟩
    rw [u16_step]
    refine ⟨_, ⟨b4, a4⟩, ?_⟩
    refine (classes_step (le_len a4) (by exact h2) (by exact h3)).2 ⟨_, ⟨rfl, b5, At.append.2 a5⟩, ?_⟩
    rw [u32_step]
    refine ⟨_, ⟨b6, a6⟩, ?_⟩
    rw [horz_step (le_len a6)]
    refine ⟨_, ⟨rfl, b7, a7⟩, ?_⟩
    rw [u32_step]
    refine ⟨_, ⟨b8, a8⟩, ?_⟩
    rw [vert_step (le_len a8)]
    refine ⟨_, ⟨rfl, b9, a9⟩, ?_⟩
    rw [u8_step]
    refine ⟨_, ⟨by omega, a10⟩, ?_⟩
    rw [if_neg (by omega), get_step, if_neg (by rw [Classical.not_not]; exact hn)]
    exact (conditions_runs (le_len a10) (by exact h4.trans hn.symm)).2 ⟨conds, rfl, b11, a11, hi', hd', he'⟩

end EditionModel
