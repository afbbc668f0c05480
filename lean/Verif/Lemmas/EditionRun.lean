import Verif.Lemmas.EditionBody

/-! # Edition data: runs on readers, and panics -/

namespace ParseBuf.Prog
open Go Spec BuilderModel
variable {α β : Type} {D : Bytes}
attribute [local irreducible] FontModel.maxFontDataSize

/-- Only reads, of at least one byte. -/
def Plain : Prog α → Prop
  | ret _ => True
  | fail _ => True
  | panic _ => True
  | take n h k => 0 < n ∧ (∀ m, Plain (h m)) ∧ ∀ b, Plain (k b)
  | index _ => False
  | sync _ => False
  | query _ _ => False

theorem Plain.bind {p : Prog α} {f : α → Prog β} (hp : p.Plain) (hf : ∀ a, (f a).Plain) : (p.bind f).Plain := by
  induction p with
  | ret a => exact hf a
  | fail m => trivial
  | panic m => trivial
  | take n h k ih ik => exact ⟨hp.1, fun m => ih m (hp.2.1 m), fun b => ik b (hp.2.2 b)⟩
  | index k ik => exact hp.elim
  | sync k ik => exact hp.elim
  | query v k ik => exact hp.elim

theorem Plain.attempt {p : Prog α} (hp : p.Plain) : p.attempt.Plain := by
  induction p with
  | ret a => trivial
  | fail m => trivial
  | panic m => trivial
  | take n h k ih ik => exact ⟨hp.1, fun m => ih m (hp.2.1 m), fun b => ik b (hp.2.2 b)⟩
  | index k ik => exact hp.elim
  | sync k ik => exact hp.elim
  | query v k ik => exact hp.elim

theorem Plain.read {n : Nat} (hn : 0 < n) : (Prog.read n).Plain := ⟨hn, fun _ => trivial, fun _ => trivial⟩

theorem Plain.ofRes (x : Res α) : (Prog.ofRes x).Plain := by cases x <;> trivial

theorem Plain.readLE {n : Nat} (hn : 0 < n) (dec : Bytes → Res α) :
    (Prog.bind (Prog.read n) fun b => Prog.ofRes (dec b)).Plain := Plain.bind (Plain.read hn) fun _ => Plain.ofRes _

theorem Plain.readShortStr : Prog.readShortStr.Plain := by
  refine Plain.bind (p := readUint8) (Plain.readLE (by omega) _) fun n => ?_
  split
  · trivial
  · exact Plain.read (by omega)

/-- Runs on a reader are those on its data. -/
theorem exec_plain (junk : Nat → UInt8) (hD : D.length ≤ FontModel.maxFontDataSize) (p : Prog α) :
    p.Plain → ∀ s i d, FInv D s i d →
    (∃ a i' d' s', p.flat D i d = .ok (a, i', d') ∧ p.exec junk s = .ok (a, s') ∧ FInv D s' i' d') ∨
    (∃ m, p.flat D i d = .err m ∧ p.exec junk s = .err m) ∨
    (∃ m, p.flat D i d = .panic m ∧ p.exec junk s = .panic m) := by
  induction p with
  | ret a => intro _ s i d h; exact Or.inl ⟨a, i, d, s, rfl, rfl, h⟩
  | fail m => intro _ s i d h; exact Or.inr (Or.inl ⟨m, rfl, rfl⟩)
  | panic m => intro _ s i d h; exact Or.inr (Or.inr ⟨m, rfl, rfl⟩)
  | take n hd k ih ik =>
    intro hp s i d h
    obtain ⟨o, t, a, b⟩ := readUpTo_flat junk hD h (n := n) hp.1
    simp only [exec, flat]
    rw [a, h.idx]
    rcases b with ⟨c, rfl, e⟩ | ⟨c, rfl, e, _⟩
    · rw [if_pos c]
      have hb : (t.bytes.take t.index).drop i = (D.take (i + n)).drop i := by
        obtain ⟨y, hy⟩ := e.bytes
        rw [e.idx, ← hy, List.take_append_of_le_length e.ile]
      simp only [hb]
      exact ik _ (hp.2.2 _) _ _ _ e
    · rw [if_neg (by omega)]
      exact ih _ (hp.2.1 _) _ _ _ e
  | index k ik => intro hp; exact hp.elim
  | sync k ik => intro hp; exact hp.elim
  | query v k ik => intro hp; exact hp.elim

/-- The reads do not panic. -/
theorem flat_wp {p : Prog α} {Q : α → G → Prop} : p.Plain → ∀ {i d e}, i ≤ D.length → p.wp ⟨D.take i, d, e⟩ Q →
    ∀ m, p.flat D i d ≠ .panic m := by
  induction p with
  | ret a => intro _ i d e _ _ m; simp [flat]
  | fail m => intro _ i d e _ _ m; simp [flat]
  | panic m => intro _ i d e _ h; exact h.elim
  | take n hd k ih ik =>
    intro hp i d e hi h m
    simp only [flat]
    split
    · rename_i hle
      refine ik _ (hp.2.2 _) (e := e) hle ?_ m
      have := h.2.2 ((D.take (i + n)).drop i) (by simp; omega)
      have e1 : D.take i ++ (D.take (i + n)).drop i = D.take (i + n) := by
        rw [List.drop_take, Nat.add_sub_cancel_left, List.take_add]
      rwa [e1] at this
    · exact ih _ (hp.2.1 _) hi (h.2.1 _) m
  | index k ik => intro hp; exact hp.elim
  | sync k ik => intro hp; exact hp.elim
  | query v k ik => intro hp; exact hp.elim

theorem flat_attempt_panic {p : Prog α} {m : String} (hp : p.Plain) : ∀ {i d}, p.attempt.flat D i d = .panic m →
    p.flat D i d = .panic m := by
  induction p with
  | ret b => intro i d; simp [attempt, flat]
  | fail m => intro i d; simp [attempt, flat]
  | panic m => intro i d; simp [attempt, flat]
  | take n h k ih ik =>
    intro i d
    simp only [attempt, flat]
    split
    · exact ik _ (hp.2.2 _)
    · exact ih _ (hp.2.1 _)
  | index k ik => exact hp.elim
  | sync k ik => exact hp.elim
  | query v k ik => exact hp.elim

theorem flat_attempt_err {p : Prog α} {m : String} (hp : p.Plain) : ∀ {i d}, p.attempt.flat D i d ≠ .err m := by
  induction p with
  | ret b => intro i d; simp [attempt, flat]
  | fail m => intro i d; simp [attempt, flat]
  | panic m => intro i d; simp [attempt, flat]
  | take n h k ih ik =>
    intro i d
    simp only [attempt, flat]
    split
    · exact ik _ (hp.2.2 _)
    · exact ih _ (hp.2.1 _)
  | index k ik => exact hp.elim
  | sync k ik => exact hp.elim
  | query v k ik => exact hp.elim

end ParseBuf.Prog

namespace EditionModel
open Go ParseBuf ParseBuf.Prog BuilderModel Spec Ed
variable {α β : Type} {D : Bytes} {i d i' d' : Nat} {e e' : Editor}

/-- A part that only reads, and does not end with an error of the reading. -/
structure Ed.Plain (p : Ed α) : Prop where
  plain : ∀ e, (p e).Plain
  noErr : ∀ e D i d m, (p e).flat D i d ≠ .err m

namespace Ed

theorem Plain.bind {p : Ed α} {f : α → Ed β} (hp : Plain p) (hf : ∀ a, Plain (f a)) : Plain (p >>= f) := by
  constructor
  · intro e
    refine Prog.Plain.bind (hp.plain e) ?_
    rintro ⟨r, e'⟩
    cases r with
    | ok a => exact (hf a).plain e'
    | error m => trivial
  · intro e D i d m
    show ((p e).bind _).flat D i d ≠ _
    rw [← Prog.bind_def, flat_bind]
    cases h : (p e).flat D i d with
    | err m => exact absurd h (hp.noErr e D i d m)
    | panic m => simp
    | ok x =>
      obtain ⟨⟨r, e'⟩, j, dj⟩ := x
      cases r with
      | ok a => exact (hf a).noErr e' D j dj m
      | error m => simp [flat]

theorem Plain.pure (a : α) : Plain (Pure.pure a : Ed α) :=
  ⟨fun _ => trivial, fun _ _ _ _ _ h => by change Res.ok _ = _ at h; cases h⟩
theorem Plain.error (m : String) : Plain (Ed.error m : Ed α) :=
  ⟨fun _ => trivial, fun _ _ _ _ _ h => by change Res.ok _ = _ at h; cases h⟩
theorem Plain.panic (m : String) : Plain (Ed.panic m : Ed α) :=
  ⟨fun _ => trivial, fun _ _ _ _ _ h => by change Res.panic _ = _ at h; cases h⟩
theorem Plain.get : Plain Ed.get :=
  ⟨fun _ => trivial, fun _ _ _ _ _ h => by change Res.ok _ = _ at h; cases h⟩
theorem Plain.modify (f : Editor → Editor) : Plain (Ed.modify f) :=
  ⟨fun _ => trivial, fun _ _ _ _ _ h => by change Res.ok _ = _ at h; cases h⟩
theorem Plain.ofRes (x : Res α) : Plain (Ed.ofRes x) := by
  cases x with
  | ok a => exact Plain.pure a
  | err m => exact Plain.error m
  | panic m => exact Plain.panic m
theorem Plain.ite {c : Prop} [Decidable c] {p q : Ed α} (hp : Plain p) (hq : Plain q) :
    Plain (if c then p else q) := by
  split
  · exact hp
  · exact hq
theorem Plain.lift {p : Prog α} (hp : p.Plain) : Plain (Ed.lift p) := by
  constructor
  · exact fun e => Prog.Plain.bind hp.attempt fun _ => trivial
  · intro e D i d m
    show ((p.attempt).bind _).flat D i d ≠ _
    rw [← Prog.bind_def, flat_bind]
    cases h : p.attempt.flat D i d with
    | err m => exact absurd h (flat_attempt_err hp)
    | panic m => simp
    | ok x => simp [flat]
theorem Plain.loop {f : Nat → Ed Unit} (hf : ∀ i, Plain (f i)) : ∀ n i, Plain (Ed.loop n i f)
  | 0, _ => Plain.pure ()
  | n + 1, i => Plain.bind (hf i) fun _ => Plain.loop hf n (i + 1)

end Ed

theorem plain_u8 : (readUint8 : Prog Nat).Plain := Prog.Plain.readLE (by omega) _
theorem plain_u16 : (readUint16 : Prog Nat).Plain := Prog.Plain.readLE (by omega) _
theorem plain_u32 : (readUint32 : Prog Nat).Plain := Prog.Plain.readLE (by omega) _
theorem plain_u64 : (readUint64 : Prog Nat).Plain := Prog.Plain.readLE (by omega) _
theorem plain_i8 : (readInt8 : Prog Int).Plain :=
  Prog.Plain.bind (p := readUint8) (f := fun v => .ret (FontModel.Font.int8 v)) plain_u8 fun _ => trivial

theorem readName_plain : readName.Plain :=
  Ed.Plain.bind (Ed.Plain.lift Prog.Plain.readShortStr) fun _ => Ed.Plain.bind (Ed.Plain.ofRes _) fun _ =>
    Ed.Plain.pure _
theorem categoryName_plain (k : Nat) : (categoryName k).Plain :=
  Ed.Plain.bind readName_plain fun _ => Ed.Plain.modify _
theorem className_plain (k : Nat) : (className k).Plain :=
  Ed.Plain.bind readName_plain fun _ => Ed.Plain.modify _
theorem categorySize_plain (k : Nat) : (categorySize k).Plain :=
  Ed.Plain.bind (Ed.Plain.lift plain_u16) fun _ => Ed.Plain.bind Ed.Plain.get fun _ =>
    Ed.Plain.ite (Ed.Plain.panic _) (Ed.Plain.modify _)
theorem classValue_plain (k : Nat) : (classValue k).Plain :=
  Ed.Plain.bind (Ed.Plain.lift plain_i8) fun _ => Ed.Plain.bind Ed.Plain.get fun _ =>
    Ed.Plain.ite (Ed.Plain.panic _) (Ed.Plain.modify _)
theorem conditionName_plain (k : Nat) : (conditionName k).Plain :=
  Ed.Plain.bind readName_plain fun _ => Ed.Plain.bind Ed.Plain.get fun _ =>
    Ed.Plain.ite (Ed.Plain.panic _) (Ed.Plain.modify _)
theorem kernPair_plain {update} (k : Nat) : (kernPair update k).Plain :=
  Ed.Plain.bind (Ed.Plain.lift plain_u16) fun _ => Ed.Plain.bind (Ed.Plain.lift plain_u16) fun _ =>
    Ed.Plain.bind (Ed.Plain.lift plain_u16) fun _ => Ed.Plain.ite (Ed.Plain.error _)
      (Ed.Plain.bind Ed.Plain.get fun _ => Ed.Plain.bind (Ed.Plain.ofRes _) fun _ =>
        Ed.Plain.bind (Ed.Plain.ofRes _) fun _ => Ed.Plain.modify _)

theorem editionBody_plain : editionBody.Plain := by
  unfold editionBody
  exact Ed.Plain.bind (Ed.Plain.lift plain_u64) fun _ => Ed.Plain.bind Ed.Plain.get fun _ =>
    Ed.Plain.ite (Ed.Plain.error _) <|
    Ed.Plain.bind (Ed.Plain.lift plain_u8) fun _ => Ed.Plain.bind (Ed.Plain.loop categoryName_plain _ _) fun _ =>
    Ed.Plain.bind (Ed.Plain.loop categorySize_plain _ _) fun _ =>
    Ed.Plain.bind (Ed.Plain.lift plain_u16) fun _ => Ed.Plain.bind (Ed.Plain.loop className_plain _ _) fun _ =>
    Ed.Plain.bind (Ed.Plain.loop classValue_plain _ _) fun _ =>
    Ed.Plain.bind (Ed.Plain.lift plain_u32) fun _ => Ed.Plain.bind (Ed.Plain.loop kernPair_plain _ _) fun _ =>
    Ed.Plain.bind (Ed.Plain.lift plain_u32) fun _ => Ed.Plain.bind (Ed.Plain.loop kernPair_plain _ _) fun _ =>
    Ed.Plain.bind (Ed.Plain.lift plain_u8) fun _ => Ed.Plain.ite (Ed.Plain.error _) <|
    Ed.Plain.bind Ed.Plain.get fun _ => Ed.Plain.ite (Ed.Plain.ite (Ed.Plain.panic _) (Ed.Plain.error _)) <|
      Ed.Plain.loop conditionName_plain _ _

/-! ## Panics -/

/-- The part panics on `D` from `i`. -/
def Ed.Panics (p : Ed α) (D : Bytes) (i d : Nat) (e : Editor) (m : String) : Prop := (p e).flat D i d = .panic m

namespace Ed
variable {m : String}

theorem Panics.bind {p : Ed α} {f : α → Ed β} : Panics (p >>= f) D i d e m ↔
    Panics p D i d e m ∨ ∃ a j dj ej, Runs p D i d e a j dj ej ∧ Panics (f a) D j dj ej m := by
  unfold Panics Runs
  show ((p e).bind _).flat D i d = _ ↔ _
  rw [← Prog.bind_def, flat_bind]
  cases h : (p e).flat D i d with
  | err m => simp
  | panic m => simp
  | ok x =>
    obtain ⟨⟨r, e'⟩, j, dj⟩ := x
    simp only [Res.ok_bind, Res.ok.injEq, Prod.mk.injEq, reduceCtorEq, false_or]
    cases r with
    | ok a =>
      constructor
      · intro h; exact ⟨a, j, dj, e', ⟨⟨rfl, rfl⟩, rfl, rfl⟩, h⟩
      · rintro ⟨_, _, _, _, ⟨⟨h1, rfl⟩, rfl, rfl⟩, h⟩
        cases h1
        exact h
    | error m' =>
      constructor
      · intro h; change Res.ok _ = _ at h; cases h
      · rintro ⟨_, _, _, _, ⟨⟨h1, _⟩, _⟩, _⟩; cases h1

theorem Panics.pure {a : α} : ¬ Panics (Pure.pure a) D i d e m := fun h => by change Res.ok _ = _ at h; cases h
theorem Panics.error {m' : String} : ¬ Panics (Ed.error m' : Ed α) D i d e m := fun h => by
  change Res.ok _ = _ at h; cases h
theorem Panics.modify {f : Editor → Editor} : ¬ Panics (Ed.modify f) D i d e m := fun h => by
  change Res.ok _ = _ at h; cases h
theorem Panics.get : ¬ Panics Ed.get D i d e m := fun h => by change Res.ok _ = _ at h; cases h
theorem Panics.ofRes {x : Res α} : Panics (Ed.ofRes x) D i d e m ↔ x = .panic m := by
  cases x with
  | ok a => simp only [reduceCtorEq, iff_false]; exact Panics.pure
  | err m => simp only [reduceCtorEq, iff_false]; exact Panics.error
  | panic m' =>
    show Res.panic m' = _ ↔ _
    simp
theorem Panics.lift {p : Prog α} (hp : p.Plain) (hw : Prog.Adv p) (hi : i ≤ D.length) :
    ¬ Panics (Ed.lift p) D i d e m := by
  intro h
  change ((p.attempt).bind _).flat D i d = _ at h
  rw [← Prog.bind_def, flat_bind] at h
  cases hf : p.attempt.flat D i d with
  | ok x => rw [hf] at h; simp [flat] at h
  | err m => rw [hf] at h; simp at h
  | panic m => exact flat_wp hp (e := 0) hi (hw.wp _) _ (flat_attempt_panic hp hf)

theorem Panics.step {p : Ed α} {f : α → Ed β} {X : Type} {Q : X → Prop} {val : X → α} {j : X → Nat} {ej : X → Editor}
    (hn : ¬ p.Panics D i d e m)
    (h : ∀ {a i' d' e'}, p.Runs D i d e a i' d' e' ↔ ∃ x, Q x ∧ a = val x ∧ i' = j x ∧ d' = d ∧ e' = ej x) :
    Panics (p >>= f) D i d e m ↔ ∃ x, Q x ∧ Panics (f (val x)) D (j x) d (ej x) m := by
  rw [Panics.bind]
  constructor
  · rintro (g | ⟨a, _, _, _, h1, h2⟩)
    · exact absurd g hn
    · obtain ⟨x, hx, rfl, rfl, rfl, rfl⟩ := h.1 h1
      exact ⟨x, hx, h2⟩
  · rintro ⟨x, hx, h2⟩
    exact Or.inr ⟨_, _, _, _, h.2 ⟨x, hx, rfl, rfl, rfl, rfl⟩, h2⟩

theorem Panics.u8 {f : Nat → Ed β} (hi : i ≤ D.length) : Panics (Ed.lift readUint8 >>= f) D i d e m ↔
    ∃ v, (v < 256 ∧ At D i (leBytes 1 v)) ∧ Panics (f v) D (i + 1) d e m :=
  Panics.step (val := id) (j := fun _ => i + 1) (ej := fun _ => e)
    (Panics.lift (Prog.Plain.readLE (by omega) _) Prog.Adv.readUint8 hi) (by
    intro a i' d' e'
    rw [Runs.lift, at_u8]
    constructor
    · rintro ⟨⟨h1, h2, rfl, rfl⟩, rfl⟩; exact ⟨_, ⟨h1, h2⟩, rfl, rfl, rfl, rfl⟩
    · rintro ⟨v, ⟨h1, h2⟩, rfl, rfl, rfl, rfl⟩; exact ⟨⟨h1, h2, rfl, rfl⟩, rfl⟩)

theorem Panics.u16 {f : Nat → Ed β} (hi : i ≤ D.length) : Panics (Ed.lift readUint16 >>= f) D i d e m ↔
    ∃ v, (v < 65536 ∧ At D i (leBytes 2 v)) ∧ Panics (f v) D (i + 2) d e m :=
  Panics.step (val := id) (j := fun _ => i + 2) (ej := fun _ => e)
    (Panics.lift (Prog.Plain.readLE (by omega) _) Prog.Adv.readUint16 hi) (by
    intro a i' d' e'
    rw [Runs.lift, at_u16]
    constructor
    · rintro ⟨⟨h1, h2, rfl, rfl⟩, rfl⟩; exact ⟨_, ⟨h1, h2⟩, rfl, rfl, rfl, rfl⟩
    · rintro ⟨v, ⟨h1, h2⟩, rfl, rfl, rfl, rfl⟩; exact ⟨⟨h1, h2, rfl, rfl⟩, rfl⟩)

theorem Panics.u32 {f : Nat → Ed β} (hi : i ≤ D.length) : Panics (Ed.lift readUint32 >>= f) D i d e m ↔
    ∃ v, (v < 4294967296 ∧ At D i (leBytes 4 v)) ∧ Panics (f v) D (i + 4) d e m :=
  Panics.step (val := id) (j := fun _ => i + 4) (ej := fun _ => e)
    (Panics.lift (Prog.Plain.readLE (by omega) _) Prog.Adv.readUint32 hi) (by
    intro a i' d' e'
    rw [Runs.lift, at_u32]
    constructor
    · rintro ⟨⟨h1, h2, rfl, rfl⟩, rfl⟩; exact ⟨_, ⟨h1, h2⟩, rfl, rfl, rfl, rfl⟩
    · rintro ⟨v, ⟨h1, h2⟩, rfl, rfl, rfl, rfl⟩; exact ⟨⟨h1, h2, rfl, rfl⟩, rfl⟩)

theorem Panics.u64 {f : Nat → Ed β} (hi : i ≤ D.length) : Panics (Ed.lift readUint64 >>= f) D i d e m ↔
    ∃ v, (v < 18446744073709551616 ∧ At D i (leBytes 8 v)) ∧ Panics (f v) D (i + 8) d e m :=
  Panics.step (val := id) (j := fun _ => i + 8) (ej := fun _ => e)
    (Panics.lift (Prog.Plain.readLE (by omega) _) Prog.Adv.readUint64 hi) (by
    intro a i' d' e'
    rw [Runs.lift, at_u64]
    constructor
    · rintro ⟨⟨h1, h2, rfl, rfl⟩, rfl⟩; exact ⟨_, ⟨h1, h2⟩, rfl, rfl, rfl, rfl⟩
    · rintro ⟨v, ⟨h1, h2⟩, rfl, rfl, rfl, rfl⟩; exact ⟨⟨h1, h2, rfl, rfl⟩, rfl⟩)

theorem Panics.get_step {f : Editor → Ed β} : Panics (Ed.get >>= f) D i d e m ↔ Panics (f e) D i d e m := Iff.rfl

theorem Panics.idx {γ : Type} {l : List γ} {k : Nat} {f : γ → Ed β} :
    Panics (Ed.ofRes (Go.idx l k) >>= f) D i d e m ↔
      (l.length ≤ k ∧ m = "index out of range") ∨ ∃ a, l[k]? = some a ∧ Panics (f a) D i d e m := by
  unfold Go.idx
  by_cases h : k < l.length
  · rw [List.getElem?_eq_getElem h]
    have hf : ¬ l.length ≤ k := by omega
    simp only [Option.some.injEq, exists_eq_left', hf, false_and, false_or]
    exact Iff.rfl
  · rw [List.getElem?_eq_none (by omega)]
    show Res.panic _ = Res.panic _ ↔ _
    simp only [Res.panic.injEq, reduceCtorEq, false_and, exists_false, or_false]
    constructor
    · rintro rfl; exact ⟨by omega, rfl⟩
    · rintro ⟨_, rfl⟩; rfl

theorem Panics.loop_not {f : Nat → Ed Unit} {N : Nat} {P : Editor → Prop}
    (h1 : ∀ i d k e m, k < N → P e → i ≤ D.length → ¬ Panics (f k) D i d e m)
    (h2 : ∀ i d k e u i' d' e', k < N → P e → Runs (f k) D i d e u i' d' e' → P e' ∧ i' ≤ D.length) :
    ∀ n k i d e, n + k ≤ N → P e → i ≤ D.length → ¬ Panics (loop n k f) D i d e m
  | 0, k, i, d, e, _, _, _ => Panics.pure
  | n + 1, k, i, d, e, hN, hP, hi => by
    intro h
    rcases Panics.bind.1 h with h | ⟨_, _, _, _, hr, h⟩
    · exact h1 _ _ _ _ _ (by omega) hP hi h
    · obtain ⟨hP', hi'⟩ := h2 _ _ _ _ _ _ _ _ (by omega) hP hr
      exact loop_not h1 h2 n (k + 1) _ _ _ (by omega) hP' hi' h

end Ed

variable {m : String}

theorem spacedName_panics (s : Bytes) : Names.validateBasicSpacedName s ≠ .panic m := by
  have hl : ∀ s : Bytes, Names.spacedNameLoop s ≠ .panic m := by
    intro s
    induction s with
    | nil => simp [Names.spacedNameLoop]
    | cons c s ih =>
      rw [Names.spacedNameLoop]
      split
      · exact ih
      · simp
  unfold Names.validateBasicSpacedName
  split
  · simp
  · split
    · simp
    · exact hl s

theorem readName_panics (hi : i ≤ D.length) : ¬ readName.Panics D i d e m := by
  intro h
  rcases Panics.bind.1 h with h | ⟨_, _, _, _, _, h⟩
  · exact Panics.lift Prog.Plain.readShortStr Prog.Adv.readShortStr hi h
  · rcases Panics.bind.1 h with h | ⟨_, _, _, _, _, h⟩
    · exact spacedName_panics _ (Panics.ofRes.1 h)
    · exact Panics.pure h

theorem categoryNames_panics {n : Nat} (hi : i ≤ D.length) : ¬ (loop n 0 categoryName).Panics D i d e m :=
  Panics.loop_not (N := n) (P := fun _ => True)
    (fun i d k e m _ _ hi h => by
      rcases Panics.bind.1 h with h | ⟨_, _, _, _, _, h⟩
      · exact readName_panics hi h
      · exact Panics.modify h)
    (fun i d k e u i' d' e' _ _ h => by
      obtain ⟨x, _, a, rfl, _⟩ := categoryName_runs.1 h
      exact ⟨trivial, a.len⟩) n 0 i d e (Nat.le_refl _) trivial hi

theorem classNames_panics {n : Nat} (hi : i ≤ D.length) : ¬ (loop n 0 className).Panics D i d e m :=
  Panics.loop_not (N := n) (P := fun _ => True)
    (fun i d k e m _ _ hi h => by
      rcases Panics.bind.1 h with h | ⟨_, _, _, _, _, h⟩
      · exact readName_panics hi h
      · exact Panics.modify h)
    (fun i d k e u i' d' e' _ _ h => by
      obtain ⟨x, _, a, rfl, _⟩ := className_runs.1 h
      exact ⟨trivial, a.len⟩) n 0 i d e (Nat.le_refl _) trivial hi

theorem categorySizes_panics {n : Nat} (hi : i ≤ D.length) (he : e.categories.length = n) :
    ¬ (loop n 0 categorySize).Panics D i d e m :=
  Panics.loop_not (N := n) (P := fun e => e.categories.length = n)
    (fun i d k e m hk hP hi h => by
      rcases Panics.bind.1 h with g | ⟨_, _, _, _, r, g⟩
      · exact Panics.lift plain_u16 Prog.Adv.readUint16 hi g
      · obtain ⟨_, rfl⟩ := Runs.lift.1 r
        rcases Panics.bind.1 g with g' | ⟨_, _, _, _, r', g'⟩
        · exact Panics.get g'
        · obtain ⟨rfl, rfl, rfl, rfl⟩ := Runs.get.1 r'
          rw [if_neg (by omega)] at g'
          exact Panics.modify g')
    (fun i d k e u i' d' e' hk hP h => by
      obtain ⟨x, _, a, rfl, _, rfl⟩ := (categorySize_runs (by omega)).1 h
      exact ⟨by simpa using hP, a.len⟩) n 0 i d e (Nat.le_refl _) he hi

theorem classValues_panics {n : Nat} (hi : i ≤ D.length) (he : e.builder.kernClasses.length = n) :
    ¬ (loop n 0 classValue).Panics D i d e m :=
  Panics.loop_not (N := n) (P := fun e => e.builder.kernClasses.length = n)
    (fun i d k e m hk hP hi h => by
      rcases Panics.bind.1 h with g | ⟨_, _, _, _, r, g⟩
      · exact Panics.lift plain_i8 Prog.Adv.readInt8 hi g
      · obtain ⟨_, rfl⟩ := Runs.lift.1 r
        rcases Panics.bind.1 g with g' | ⟨_, _, _, _, r', g'⟩
        · exact Panics.get g'
        · obtain ⟨rfl, rfl, rfl, rfl⟩ := Runs.get.1 r'
          rw [if_neg (by omega)] at g'
          exact Panics.modify g')
    (fun i d k e u i' d' e' hk hP h => by
      obtain ⟨x, _, a, rfl, _, rfl⟩ := (classValue_runs (by omega)).1 h
      exact ⟨by simpa using hP, a.len⟩) n 0 i d e (Nat.le_refl _) he hi

theorem conditionNames_panics {n : Nat} (hi : i ≤ D.length) (he : e.conditionNames.length = n) :
    ¬ (loop n 0 conditionName).Panics D i d e m :=
  Panics.loop_not (N := n) (P := fun e => e.conditionNames.length = n)
    (fun i d k e m hk hP hi h => by
      rcases Panics.bind.1 h with g | ⟨_, _, _, _, r, g⟩
      · exact readName_panics hi g
      · obtain ⟨_, _, _, _, rfl⟩ := readName_runs.1 r
        rcases Panics.bind.1 g with g' | ⟨_, _, _, _, r', g'⟩
        · exact Panics.get g'
        · obtain ⟨rfl, rfl, rfl, rfl⟩ := Runs.get.1 r'
          rw [if_neg (by omega)] at g'
          exact Panics.modify g')
    (fun i d k e u i' d' e' hk hP h => by
      obtain ⟨x, _, a, rfl, _, rfl⟩ := (conditionName_runs (by omega)).1 h
      exact ⟨by simpa using hP, a.len⟩) n 0 i d e (Nat.le_refl _) he hi

theorem kernPair_panics {k : Nat} {update} (hi : i ≤ D.length) : (kernPair update k).Panics D i d e m ↔
    m = "index out of range" ∧ ∃ x : PairClass, x.Fits ∧
      (e.builder.glyphOrder.length ≤ x.first ∨ e.builder.glyphOrder.length ≤ x.second) ∧ At D i x.bytes := by
  unfold kernPair
  simp only [PairClass.Fits, PairClass.bytes, At.append, leBytes_length]
  rw [Panics.u16 hi]
  constructor
  · rintro ⟨a, ⟨b1, a1⟩, h⟩
    obtain ⟨b, ⟨b2, a2⟩, h⟩ := (Panics.u16 (le_len a1)).1 h
    obtain ⟨c, ⟨b3, a3⟩, h⟩ := (Panics.u16 (le_len a2)).1 h
    split at h
    · exact absurd h Panics.error
    rename_i hc
    rw [Panics.get_step, Panics.idx] at h
    rcases h with ⟨h, hm⟩ | ⟨u, _, h⟩
    · exact ⟨hm, ⟨a, b, c⟩, ⟨b1, b2, Nat.pos_of_ne_zero hc, b3⟩, Or.inl h, a1, a2, a3⟩
    · rw [Panics.idx] at h
      rcases h with ⟨h, hm⟩ | ⟨u, _, h⟩
      · exact ⟨hm, ⟨a, b, c⟩, ⟨b1, b2, Nat.pos_of_ne_zero hc, b3⟩, Or.inr h, a1, a2, a3⟩
      · exact absurd h Panics.modify
  · rintro ⟨hm, ⟨a, b, c⟩, ⟨b1, b2, hc, b3⟩, hx, a1, a2, a3⟩
    simp only at b1 b2 hc b3 hx a1 a2 a3
    refine ⟨a, ⟨b1, a1⟩, (Panics.u16 (le_len a1)).2 ⟨b, ⟨b2, a2⟩, (Panics.u16 (le_len a2)).2 ⟨c, ⟨b3, a3⟩, ?_⟩⟩⟩
    rw [if_neg (by omega), Panics.get_step, Panics.idx]
    by_cases h1 : e.builder.glyphOrder.length ≤ a
    · exact Or.inl ⟨h1, hm⟩
    · refine Or.inr ⟨_, List.getElem?_eq_getElem (by omega), ?_⟩
      rw [Panics.idx]
      exact Or.inl ⟨by omega, hm⟩

theorem kernLoop_panics {update} (hu : ∀ f b, (update f b).glyphOrder = b.glyphOrder) : ∀ {n k i d} {e : Editor},
    i ≤ D.length → ((loop n k (kernPair update)).Panics D i d e m ↔
      m = "index out of range" ∧ ∃ (t : List PairClass) (x : PairClass), t.length < n ∧
        (∀ p ∈ t, p.Valid e.builder.glyphOrder.length) ∧ x.Fits ∧
        (e.builder.glyphOrder.length ≤ x.first ∨ e.builder.glyphOrder.length ≤ x.second) ∧
        At D i (t.flatMap PairClass.bytes ++ x.bytes))
  | 0, k, i, d, e, hi => by
    constructor
    · intro h; exact absurd h Panics.pure
    · rintro ⟨_, _, _, h, _⟩; omega
  | n + 1, k, i, d, e, hi => by
    refine (Panics.bind (p := kernPair update k)).trans ?_
    constructor
    · rintro (h | ⟨_, _, _, _, h1, h⟩)
      · obtain ⟨hm, x, f, h, a⟩ := (kernPair_panics hi).1 h
        exact ⟨hm, [], x, by simp, by simp, f, h, by simpa using a⟩
      · obtain ⟨y, hy, a1, rfl, rfl, rfl⟩ := kernPair_runs.1 h1
        obtain ⟨hm, t, x, hl, ht, f, h, a⟩ := (kernLoop_panics hu a1.len).1 h
        simp only [hu] at ht h
        refine ⟨hm, y :: t, x, by simp; omega, ?_, f, h, ?_⟩
        · intro p hp
          rcases List.mem_cons.1 hp with rfl | hp
          · exact hy
          · exact ht p hp
        · rw [List.flatMap_cons, List.append_assoc]; exact At.append.2 ⟨a1, a⟩
    · rintro ⟨hm, t, x, hl, ht, f, h, a⟩
      cases t with
      | nil => exact Or.inl ((kernPair_panics hi).2 ⟨hm, x, f, h, by simpa using a⟩)
      | cons y t =>
        rw [List.flatMap_cons, List.append_assoc, At.append] at a
        refine Or.inr ⟨(), _, _, _, kernPair_runs.2 ⟨y, ht y (by simp), a.1, rfl, rfl, rfl⟩,
          (kernLoop_panics hu a.1.len).2 ⟨hm, t, x, by simpa using hl, ?_, f, ?_, a.2⟩⟩
        · simp only [hu]; exact fun p hp => ht p (by simp [hp])
        · simp only [hu]; exact h

namespace Ed

theorem Panics.bind_assoc {γ : Type} {p : Ed α} {q : α → Ed β} {f : β → Ed γ} :
    Panics (p >>= fun a => q a >>= f) D i d e m ↔ Panics ((Ed.bind p q) >>= f) D i d e m := by
  have hb : ∀ {b j dj ej}, Runs (Ed.bind p q) D i d e b j dj ej ↔ _ := fun {b j dj ej} => Runs.bind (p := p) (f := q)
  have hp : Panics (Ed.bind p q) D i d e m ↔ _ := Panics.bind (p := p) (f := q)
  simp only [Panics.bind]
  constructor
  · rintro (h | ⟨a, _, _, _, h1, h | ⟨b, _, _, _, h2, h3⟩⟩)
    · exact Or.inl (hp.2 (Or.inl h))
    · exact Or.inl (hp.2 (Or.inr ⟨a, _, _, _, h1, h⟩))
    · exact Or.inr ⟨b, _, _, _, hb.2 ⟨a, _, _, _, h1, h2⟩, h3⟩
  · rintro (h | ⟨b, _, _, _, h1, h3⟩)
    · rcases hp.1 h with h | ⟨a, _, _, _, h1, h⟩
      · exact Or.inl h
      · exact Or.inr ⟨a, _, _, _, h1, Or.inl h⟩
    · obtain ⟨a, _, _, _, h1, h2⟩ := hb.1 h1
      exact Or.inr ⟨a, _, _, _, h1, Or.inr ⟨b, _, _, _, h2, h3⟩⟩

end Ed

theorem categoryNames_length : ∀ {n k i d} {e : Editor} {u : Unit}, i ≤ D.length →
    (loop n k categoryName).Runs D i d e u i' d' e' → e'.categories.length = e.categories.length + n ∧ i' ≤ D.length
  | 0, k, i, d, e, u, hi, h => by
    obtain ⟨_, rfl, _, rfl⟩ := Runs.pure.1 h
    exact ⟨rfl, hi⟩
  | n + 1, k, i, d, e, u, hi, h => by
    obtain ⟨_, _, _, _, h1, h2⟩ := (Runs.bind (p := categoryName k)).1 h
    obtain ⟨s, _, a, rfl, rfl, rfl⟩ := categoryName_runs.1 h1
    obtain ⟨h3, h4⟩ := categoryNames_length a.len h2
    simp only [List.length_append, List.length_singleton] at h3
    exact ⟨by omega, h4⟩

theorem classNames_length : ∀ {n k i d} {e : Editor} {u : Unit}, i ≤ D.length →
    (loop n k className).Runs D i d e u i' d' e' →
    e'.builder.kernClasses.length = e.builder.kernClasses.length + n ∧ i' ≤ D.length
  | 0, k, i, d, e, u, hi, h => by
    obtain ⟨_, rfl, _, rfl⟩ := Runs.pure.1 h
    exact ⟨rfl, hi⟩
  | n + 1, k, i, d, e, u, hi, h => by
    obtain ⟨_, _, _, _, h1, h2⟩ := (Runs.bind (p := className k)).1 h
    obtain ⟨s, _, a, rfl, rfl, rfl⟩ := className_runs.1 h1
    obtain ⟨h3, h4⟩ := classNames_length a.len h2
    simp only [List.length_append, List.length_singleton] at h3
    exact ⟨by omega, h4⟩

theorem categories_pstep {n : Nat} {f : Ed β} (hi : i ≤ D.length) (he : e.categories = []) :
    (loop n 0 categoryName >>= fun _ => loop n 0 categorySize >>= fun _ => f).Panics D i d e m ↔
    ∃ l : List (Bytes × Nat), (l.length = n ∧ (∀ c ∈ l, SpacedName c.1 ∧ c.2 < 65536) ∧
      At D i (l.flatMap (fun c => shortStr c.1) ++ l.flatMap fun c => leBytes 2 c.2)) ∧
      f.Panics D (i + (l.flatMap (fun c => shortStr c.1) ++ l.flatMap fun c => leBytes 2 c.2).length) d
        { e with categories := l } m := by
  refine Panics.bind_assoc.trans (Panics.step (val := fun _ => ()) ?_ (by
    intro a i' d' e'
    rw [categories_runs hi he]
    constructor
    · rintro ⟨l, h1, h2, h3, h4, h5, h6⟩; exact ⟨l, ⟨h1, h2, h3⟩, rfl, h4, h5, h6⟩
    · rintro ⟨l, ⟨h1, h2, h3⟩, _, h4, h5, h6⟩; exact ⟨l, h1, h2, h3, h4, h5, h6⟩))
  intro h
  rcases (Panics.bind (p := loop n 0 categoryName)).1 h with g | ⟨_, _, _, _, h1, g⟩
  · exact categoryNames_panics hi g
  · obtain ⟨h3, h4⟩ := categoryNames_length hi h1
    exact categorySizes_panics h4 (by rw [h3, he]; simp) g

theorem classes_pstep {n : Nat} {f : Ed β} (hi : i ≤ D.length) (he : e.classNames = [])
    (hk : e.builder.kernClasses = []) :
    (loop n 0 className >>= fun _ => loop n 0 classValue >>= fun _ => f).Panics D i d e m ↔
    ∃ l : List (Bytes × Int), (l.length = n ∧ (∀ c ∈ l, SpacedName c.1 ∧ -128 ≤ c.2 ∧ c.2 ≤ 127) ∧
      At D i (l.flatMap (fun c => shortStr c.1) ++ l.flatMap fun c => leBytes 1 (c.2 % 256).toNat)) ∧
      f.Panics D (i + (l.flatMap (fun c => shortStr c.1) ++ l.flatMap fun c => leBytes 1 (c.2 % 256).toNat).length) d
        { e with classNames := l.map (·.1), builder := { e.builder with kernClasses := l.map (·.2) } } m := by
  refine Panics.bind_assoc.trans (Panics.step (val := fun _ => ()) ?_ (by
    intro a i' d' e'
    rw [classes_runs hi he hk]
    constructor
    · rintro ⟨l, h1, h2, h3, h4, h5, h6⟩; exact ⟨l, ⟨h1, h2, h3⟩, rfl, h4, h5, h6⟩
    · rintro ⟨l, ⟨h1, h2, h3⟩, _, h4, h5, h6⟩; exact ⟨l, h1, h2, h3, h4, h5, h6⟩))
  intro h
  rcases (Panics.bind (p := loop n 0 className)).1 h with g | ⟨_, _, _, _, h1, g⟩
  · exact classNames_panics hi g
  · obtain ⟨h3, h4⟩ := classNames_length hi h1
    exact classValues_panics h4 (by rw [h3, hk]; simp) g

theorem prefix_at0 {x : Bytes} : x <+: D ↔ At D 0 x := by
  unfold At
  constructor
  · intro h; exact ⟨by simp, by simpa using h⟩
  · rintro ⟨_, h⟩; simpa using h

/-- The part of `editionBody` after the classes. -/
def editionTail : Ed Unit := do
  let numHorz ← lift readUint32
  loop numHorz 0 (kernPair onHorz)
  let numVert ← lift readUint32
  loop numVert 0 (kernPair onVert)
  let numConditions ← lift readUint8
  if numConditions = 255 then error "ConditionNames must have at most 254 elements" else
  let e ← get
  if numConditions ≠ e.builder.conditions.length then
    if e.builder.conditions.length > 254 then Ed.panic "invalid internal state"
    else error "ConditionNames expected to have another number of elements"
  else loop numConditions 0 conditionName

theorem editionTail_panics (hi : i ≤ D.length) (h4 : e.conditionNames.length = e.builder.conditions.length)
    (h5 : e.builder.conditions.length ≤ 254) :
    editionTail.Panics D i d e m ↔ m = "index out of range" ∧ ∃ (n : Nat) (t : List PairClass) (p : PairClass),
      BadTable e.builder n t p ∧ (At D i (badBytes n t p) ∨
        ∃ h, ValidTable e.builder h ∧ At D i (tableBytes h ++ badBytes n t p)) := by
  unfold editionTail
  simp only [badBytes, tableBytes, List.append_assoc]
  simp only [At.append (x := leBytes _ _), At.append (x := List.flatMap _ _) (y := leBytes _ _ ++ _), leBytes_length]
  rw [Panics.u32 hi]
  constructor
  · rintro ⟨n3, ⟨b6, a6⟩, r5⟩
    rcases Panics.bind.1 r5 with r6 | ⟨_, _, _, _, r6, r7⟩
    · obtain ⟨hm, t, p, hl, ht, hf, hg, a7⟩ := (kernLoop_panics (update := onHorz) (fun _ _ => rfl) (le_len a6)).1 r6
      exact ⟨hm, n3, t, p, ⟨⟨hl, b6⟩, ht, hf, hg⟩, Or.inl ⟨a6, a7⟩⟩
    · obtain ⟨h, h6, b7, a7, rfl, rfl, rfl⟩ := (horz_runs (le_len a6)).1 r6
      obtain ⟨n4, ⟨b8, a8⟩, r8⟩ := (Panics.u32 a7.len).1 r7
      rcases Panics.bind.1 r8 with r9 | ⟨_, _, _, _, r9, r10⟩
      · obtain ⟨hm, t, p, hl, ht, hf, hg, a9⟩ := (kernLoop_panics (update := onVert) (fun _ _ => rfl) (le_len a8)).1 r9
        exact ⟨hm, n4, t, p, ⟨⟨hl, b8⟩, ht, hf, hg⟩, Or.inr ⟨h, ⟨by omega, b7⟩, by rw [h6]; exact a6, a7, a8, a9⟩⟩
      · obtain ⟨v, h9, b9, a9, rfl, rfl, rfl⟩ := (vert_runs (le_len a8)).1 r9
        obtain ⟨n5, ⟨b10, a10⟩, r11⟩ := (Panics.u8 a9.len).1 r10
        exfalso
        split at r11
        · exact Panics.error r11
        · rw [Panics.get_step] at r11
          split at r11
          · split at r11
            · rename_i hx
              change 254 < e.builder.conditions.length at hx
              omega
            · exact Panics.error r11
          · rename_i hn
            rw [Classical.not_not] at hn
            exact conditionNames_panics (le_len a10) (by exact h4.trans hn.symm) r11
  · rintro ⟨hm, n, t, p, ⟨⟨hl, hn⟩, ht, hf, hg⟩, ⟨a6, a7⟩ | ⟨h, ⟨hh, b7⟩, a6, a7, a8, a9⟩⟩
    · exact ⟨n, ⟨hn, a6⟩, Panics.bind.2 (Or.inl
        ((kernLoop_panics (update := onHorz) (fun _ _ => rfl) (le_len a6)).2 ⟨hm, t, p, hl, ht, hf, hg, a7⟩))⟩
    · refine ⟨h.length, ⟨hh, a6⟩, Panics.bind.2 (Or.inr ⟨(), _, _, _,
        (horz_runs (le_len a6)).2 ⟨h, rfl, b7, a7, rfl, rfl, rfl⟩, ?_⟩)⟩
      exact (Panics.u32 a7.len).2 ⟨n, ⟨hn, a8⟩, Panics.bind.2 (Or.inl
        ((kernLoop_panics (update := onVert) (fun _ _ => rfl) (le_len a8)).2 ⟨hm, t, p, hl, ht, hf, hg, a9⟩))⟩

theorem editionBody_eq : editionBody = (do
    let id ← lift readUint64
    let e ← get
    if id ≠ e.builder.fontID.toNat then error "edition data doesn't match current font ID" else
    let numCategories ← lift readUint8
    loop numCategories 0 categoryName
    loop numCategories 0 categorySize
    let numClasses ← lift readUint16
    loop numClasses 0 className
    loop numClasses 0 classValue
    editionTail) := rfl

/-- When the body panics. -/
theorem editionBody_panics (h1 : e.categories = []) (h2 : e.classNames = [])
    (h3 : e.builder.kernClasses = []) (h4 : e.conditionNames.length = e.builder.conditions.length)
    (h5 : e.builder.conditions.length ≤ 254) :
    editionBody.Panics D 0 d e m ↔ m = "index out of range" ∧ MissingGlyph e.builder D := by
  have hid := e.builder.fontID.toNat_lt
  have hhead : ∀ (x : EditionData) (y : Bytes), At D 0 (x.headBytes ++ y) ↔ At D 0 (leBytes 8 x.fontID ++ (leBytes 1 x.categories.length ++
      ((x.categories.flatMap (fun c => shortStr c.1) ++ x.categories.flatMap fun c => leBytes 2 c.2) ++
      (leBytes 2 x.classes.length ++ ((x.classes.flatMap (fun c => shortStr c.1) ++
        x.classes.flatMap fun c => leBytes 1 (c.2 % 256).toNat) ++ y))))) := fun x y => by
    simp only [EditionData.headBytes, EditionData.categoryBytes, EditionData.classBytes, List.append_assoc]
  simp only [At.append (x := leBytes _ _), At.append (x := List.flatMap _ _ ++ List.flatMap _ _), leBytes_length] at hhead
  rw [editionBody_eq]
  unfold MissingGlyph
  simp only [prefix_at0, hhead]
  rw [Panics.u64 (by omega)]
  constructor
  · rintro ⟨id, ⟨b1, a1⟩, r⟩
    rw [Panics.get_step] at r
    split at r
    · exact absurd r Panics.error
    rename_i hi
    rw [Classical.not_not] at hi
    obtain ⟨n1, ⟨b2, a2⟩, r1⟩ := (Panics.u8 (le_len a1)).1 r
    obtain ⟨cats, ⟨rfl, b3, a3⟩, r2⟩ := (categories_pstep (le_len a2) h1).1 r1
    obtain ⟨n2, ⟨b4, a4⟩, r3⟩ := (Panics.u16 a3.len).1 r2
    obtain ⟨classes, ⟨rfl, b5, a5⟩, r4⟩ := (classes_pstep (le_len a4) (by exact h2) (by exact h3)).1 r3
    obtain ⟨hm, n, t, p, hb, hx⟩ := (editionTail_panics a5.len (by exact h4) (by exact h5)).1 r4
    refine ⟨hm, ?_⟩
    rcases hx with hx | ⟨h, hh, hx⟩
    · exact ⟨⟨id, cats, classes, [], [], []⟩, n, t, p, ⟨hi, b2, b3, b4, b5⟩, ⟨hb.count, hb.pairs, hb.fits, hb.missing⟩,
        Or.inl ⟨a1, a2, a3, a4, a5, hx⟩⟩
    · exact ⟨⟨id, cats, classes, h, [], []⟩, n, t, p, ⟨hi, b2, b3, b4, b5⟩, ⟨hb.count, hb.pairs, hb.fits, hb.missing⟩,
        Or.inr ⟨⟨hh.1, hh.2⟩, a1, a2, a3, a4, a5, hx⟩⟩
  · rintro ⟨hm, ⟨id, cats, classes, h, v, cs⟩, n, t, p, ⟨hi, b2, b3, b4, b5⟩, hb, hx⟩
    simp only at hi b2 b3 b4 b5 hx
    have key : At D 0 (leBytes 8 id) ∧ At D (0 + 8) (leBytes 1 cats.length) ∧
        At D (0 + 8 + 1) (cats.flatMap (fun c => shortStr c.1) ++ cats.flatMap fun c => leBytes 2 c.2) ∧
        At D (0 + 8 + 1 + (cats.flatMap (fun c => shortStr c.1) ++ cats.flatMap fun c => leBytes 2 c.2).length)
          (leBytes 2 classes.length) ∧
        At D (0 + 8 + 1 + (cats.flatMap (fun c => shortStr c.1) ++ cats.flatMap fun c => leBytes 2 c.2).length + 2)
          (classes.flatMap (fun c => shortStr c.1) ++ classes.flatMap fun c => leBytes 1 (c.2 % 256).toNat) ∧
        (At D (0 + 8 + 1 + (cats.flatMap (fun c => shortStr c.1) ++ cats.flatMap fun c => leBytes 2 c.2).length + 2 +
          (classes.flatMap (fun c => shortStr c.1) ++ classes.flatMap fun c => leBytes 1 (c.2 % 256).toNat).length)
          (badBytes n t p) ∨ ∃ h, ValidTable e.builder h ∧
        At D (0 + 8 + 1 + (cats.flatMap (fun c => shortStr c.1) ++ cats.flatMap fun c => leBytes 2 c.2).length + 2 +
          (classes.flatMap (fun c => shortStr c.1) ++ classes.flatMap fun c => leBytes 1 (c.2 % 256).toNat).length)
          (tableBytes h ++ badBytes n t p)) := by
      rcases hx with ⟨a1, a2, a3, a4, a5, hx⟩ | ⟨hh, a1, a2, a3, a4, a5, hx⟩
      · exact ⟨a1, a2, a3, a4, a5, Or.inl hx⟩
      · exact ⟨a1, a2, a3, a4, a5, Or.inr ⟨h, hh, hx⟩⟩
    obtain ⟨a1, a2, a3, a4, a5, hx⟩ := key
    refine ⟨id, ⟨by omega, a1⟩, ?_⟩
    rw [Panics.get_step, if_neg (by rw [Classical.not_not]; exact hi), Panics.u8 (le_len a1)]
    refine ⟨_, ⟨b2, a2⟩, (categories_pstep (le_len a2) h1).2 ⟨cats, ⟨rfl, b3, a3⟩, ?_⟩⟩
    refine (Panics.u16 a3.len).2 ⟨_, ⟨b4, a4⟩, (classes_pstep (le_len a4) (by exact h2) (by exact h3)).2
      ⟨classes, ⟨rfl, b5, a5⟩, ?_⟩⟩
    refine (editionTail_panics a5.len (by exact h4) (by exact h5)).2 ⟨hm, n, t, p, ⟨hb.count, hb.pairs, hb.fits, hb.missing⟩, ?_⟩
    rcases hx with hx | ⟨h, hh, hx⟩
    · exact Or.inl hx
    · exact Or.inr ⟨h, ⟨hh.1, hh.2⟩, hx⟩

end EditionModel
