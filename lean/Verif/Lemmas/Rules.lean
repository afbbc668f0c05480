import Verif.Lemmas.At
import Verif.Model.Rewrites
import Verif.Spec.Rules

/-! # Reading encoded rules and sets -/

namespace Spec
open Go Helpers FontModel BuilderModel

theorem word16_eq (v : Nat) : word16 v = appendUint16LE [] v := by
  rw [append16]
  simp only [word16, le16, byte, Nat.shiftRight_eq_div_pow]
theorem word32_eq (v : Nat) : word32 v = appendUint32LE [] v := by
  rw [append32]
  simp only [word32, le32, byte, Nat.shiftRight_eq_div_pow]
theorem word16_length (v : Nat) : (word16 v).length = 2 := rfl
theorem word32_length (v : Nat) : (word32 v).length = 4 := rfl

theorem flat16_length (l : List Nat) : (l.flatMap word16).length = 2 * l.length := by
  induction l with
  | nil => rfl
  | cons a l ih => rw [List.flatMap_cons, List.length_append, ih, word16_length, List.length_cons]; omega
theorem flat32_length (l : List Nat) : (l.flatMap word32).length = 4 * l.length := by
  induction l with
  | nil => rfl
  | cons a l ih => rw [List.flatMap_cons, List.length_append, ih, word32_length, List.length_cons]; omega

theorem At.w16 {D : Bytes} {o v : Nat} (h : At D o (word16 v)) : rd16 D o = .ok (v % 65536) := by
  rw [word16_eq] at h; exact h.rd16
theorem At.w32 {D : Bytes} {o v : Nat} (h : At D o (word32 v)) : rd32 D o = .ok (v % 4294967296) := by
  rw [word32_eq] at h; exact h.rd32

/-! ## Rules -/

theorem outLoop16 {D : Bytes} : ∀ (n i : Nat) (l : List Nat), At D i (l.flatMap word16) →
    n ≤ 2 * l.length → (∀ g ∈ l, g < 65536) →
    Rule.outLoop rd16 D n i = .ok (l.take ((n + 1) / 2))
  | 0, i, l, _, _, _ => by simp [Rule.outLoop]
  | 1, i, l, h, hn, hb => by
    cases l with
    | nil => simp at hn
    | cons a l =>
      rw [List.flatMap_cons] at h
      rw [Rule.outLoop, At.w16 h.left, Res.ok_bind, Nat.mod_eq_of_lt (hb a (by simp))]
      simp
  | n + 2, i, l, h, hn, hb => by
    cases l with
    | nil => simp at hn
    | cons a l =>
      rw [List.flatMap_cons] at h
      have h2 := h.right
      rw [word16_length] at h2
      rw [Rule.outLoop, At.w16 h.left, Res.ok_bind, Nat.mod_eq_of_lt (hb a (by simp)),
        outLoop16 n (i + 2) l h2 (by simp at hn; omega) (fun g hg => hb g (by simp [hg])), Res.ok_bind]
      have : (n + 2 + 1) / 2 = (n + 1) / 2 + 1 := by omega
      rw [this, List.take_succ_cons]
      rfl

/-- All reads of the code for utf8 rules are inside of the outputs. -/
theorem outLoop32 {D : Bytes} : ∀ (n i : Nat), i + n + 4 ≤ D.length + 1 →
    ∃ l, Rule.outLoop rd32 D n i = .ok l ∧ l.length = (n + 1) / 2 ∧
      ∀ k, k < (n + 1) / 2 → l[k]? = some (u32At D (i + 2 * k))
  | 0, i, _ => ⟨[], by simp [Rule.outLoop]⟩
  | 1, i, h => by
    refine ⟨[u32At D i], ?_, rfl, ?_⟩
    · rw [Rule.outLoop, rd32_eq (D := D) (o := i) (by omega)]; rfl
    · intro k hk
      have : k = 0 := by omega
      subst this; rfl
  | n + 2, i, h => by
    obtain ⟨l, h1, h2, h3⟩ := outLoop32 (D := D) n (i + 2) (by omega)
    refine ⟨u32At D i :: l, ?_, ?_, ?_⟩
    · rw [Rule.outLoop, rd32_eq (D := D) (o := i) (by omega), Res.ok_bind, h1]; rfl
    · rw [List.length_cons, h2]; omega
    · intro k hk
      cases k with
      | zero => rfl
      | succ k =>
        rw [List.getElem?_cons_succ, h3 k (by omega)]
        rw [show i + 2 + 2 * k = i + 2 * (k + 1) by omega]

theorem equals_go (a b : Bytes) (h : a.length = b.length) : Rule.equals.go a b = true ↔ a = b := by
  induction a generalizing b with
  | nil =>
    cases b with
    | nil => simp [Rule.equals.go]
    | cons _ _ => simp at h
  | cons x xs ih =>
    cases b with
    | nil => simp at h
    | cons y ys =>
      rw [Rule.equals.go]
      by_cases hxy : x = y
      · subst hxy
        rw [if_neg (by simp), ih ys (by simpa using h)]
        simp
      · rw [if_pos hxy]; simp [hxy]

/-- The parts of a rule. -/
theorem rule_at (x : Bytes) (a b c d e : UInt8) :
    At ([a, b, c, d, e] ++ x) 0 [a] ∧ At ([a, b, c, d, e] ++ x) 1 [b] ∧ At ([a, b, c, d, e] ++ x) 2 [c] ∧
    At ([a, b, c, d, e] ++ x) 3 [d] ∧ At ([a, b, c, d, e] ++ x) 4 [e] ∧ At ([a, b, c, d, e] ++ x) 5 x := by
  have h := At.intro [] ([a, b, c, d, e] ++ x) []
  simp only [List.nil_append, List.append_nil, List.length_nil] at h
  have h1 := At.cons.1 h
  have h2 := At.cons.1 h1.2
  have h3 := At.cons.1 h2.2
  have h4 := At.cons.1 h3.2
  have h5 := At.cons.1 h4.2
  exact ⟨h1.1, h2.1, h3.1, h4.1, h5.1, h5.2⟩

theorem u32At_w32 {D : Bytes} {o v : Nat} (h : At D o (word32 v)) : u32At D o = v % 4294967296 := by
  rw [word32_eq] at h; exact h.u32

theorem flat32_get {D : Bytes} : ∀ {l : List Nat} {i : Nat}, At D i (l.flatMap word32) →
    ∀ k (hk : k < l.length), At D (i + 4 * k) (word32 l[k])
  | [], _, _, k, hk => by simp at hk
  | a :: l, i, h, k, hk => by
    rw [List.flatMap_cons] at h
    cases k with
    | zero => exact h.left
    | succ k =>
      have h2 := h.right
      rw [word32_length] at h2
      have := flat32_get h2 k (by simpa using hk)
      rw [List.getElem_cons_succ, show i + 4 * (k + 1) = i + 4 + 4 * k by omega]
      exact this

theorem At_cast {D : Bytes} {o o' : Nat} {x : Bytes} (h : At D o x) (e : o = o') : At D o' x := e ▸ h

/-- A read between two elements. -/
theorem u32At_halves {D : Bytes} {o p a b : Nat} (ha : At D o (word32 a)) (hb : At D (o + 4) (word32 b))
    (hp : p = o + 2) (hl : a < 4294967296) : u32At D p = a / 65536 + b % 65536 * 65536 := by
  subst hp
  have a1 := At.cons.1 ha
  have a2 := At.cons.1 a1.2
  have a3 := At.cons.1 a2.2
  have b1 := At.cons.1 hb
  have b2 := At.cons.1 b1.2
  have f0 := a3.1.byte
  have f1 := a3.2.byte
  have f2 := b1.1.byte
  have f3 := b2.1.byte
  simp only [UInt8.toNat_ofNat', Nat.add_assoc, Nat.reduceAdd, Nat.reducePow] at f0 f1 f2 f3
  simp only [u32At, u24At, u16At, Nat.add_assoc, Nat.reduceAdd, f0, f1, f2, f3]
  omega

/-! ## Sets -/

theorem rangeLoop16 {D : Bytes} : ∀ (l : List (Nat × Nat)) (i : Nat),
    At D i (l.flatMap fun r => word16 r.1 ++ [UInt8.ofNat r.2]) →
    (∀ r ∈ l, r.2 ≤ 255 ∧ r.1 + r.2 < 65536) →
    RSet.glyphRangeLoop D l.length i = .ok (l.map fun r => (r.1, r.1 + r.2))
  | [], i, _, _ => rfl
  | r :: l, i, h, hb => by
    obtain ⟨h1, h2⟩ := hb r (by simp)
    rw [List.flatMap_cons] at h
    have a := h.left.left
    have b := h.left.right
    have c := h.right
    rw [word16_length] at b
    rw [List.length_append, word16_length, List.length_singleton] at c
    have hv : (UInt8.ofNat r.2).toNat = r.2 := by simp; omega
    rw [List.length_cons, RSet.glyphRangeLoop, At.w16 a, Res.ok_bind, b.rd8, Res.ok_bind,
      rangeLoop16 l (i + 3) c (fun x hx => hb x (by simp [hx])), Res.ok_bind, hv,
      Nat.mod_eq_of_lt (by omega)]
    simp only [Res.pure_eq, List.map_cons, u16]
    rw [Nat.mod_eq_of_lt (by omega)]

theorem listLoop16 {D : Bytes} : ∀ (l : List Nat) (i : Nat), At D i (l.flatMap word16) →
    (∀ g ∈ l, g < 65536) → RSet.glyphListLoop D l.length i = .ok l
  | [], _, _, _ => rfl
  | g :: l, i, h, hb => by
    rw [List.flatMap_cons] at h
    have c := h.right
    rw [word16_length] at c
    rw [List.length_cons, RSet.glyphListLoop, At.w16 h.left, Res.ok_bind,
      listLoop16 l (i + 2) c (fun x hx => hb x (by simp [hx])), Res.ok_bind,
      Nat.mod_eq_of_lt (hb g (by simp))]
    rfl

theorem listLoop32 {D : Bytes} : ∀ (l : List Nat) (i : Nat), At D i (l.flatMap word32) →
    (∀ g ∈ l, g < 2147483648) → RSet.runeListLoop D l.length i = .ok (l.map Int.ofNat)
  | [], _, _, _ => rfl
  | g :: l, i, h, hb => by
    have hg := hb g (by simp)
    rw [List.flatMap_cons] at h
    have c := h.right
    rw [word32_length] at c
    rw [List.length_cons, RSet.runeListLoop, At.w32 h.left, Res.ok_bind,
      listLoop32 l (i + 4) c (fun x hx => hb x (by simp [hx])), Res.ok_bind,
      Nat.mod_eq_of_lt (by omega)]
    simp only [Res.pure_eq, RSet.int32, if_pos hg, List.map_cons]
    rfl

/-- The ranges that the code visits: the highest byte of the code point is taken as the size. -/
theorem rangeLoop32 {D : Bytes} (bound : Nat) : ∀ (l : List (Nat × Nat)) (n i : Nat),
    At D i (l.flatMap fun r => word32 r.1 ++ [UInt8.ofNat r.2]) →
    (∀ r ∈ l, r.1 < 16777216) → l.length ≤ n → bound + 1 = i + 5 * l.length →
    RSet.runeRangeLoop D bound n i = .ok (l.map fun r => (Int.ofNat r.1, Int.ofNat r.1))
  | [], n, i, _, _, _, hi => by
    cases n with
    | zero => rfl
    | succ n => rw [RSet.runeRangeLoop, if_neg (by simp at hi; omega)]; rfl
  | r :: l, n, i, h, hb, hn, hi => by
    have h1 := hb r (by simp)
    cases n with
    | zero => simp at hn
    | succ n =>
      rw [List.length_cons] at hn hi
      rw [List.flatMap_cons] at h
      have a := h.left.left
      have c := h.right
      rw [List.length_append, word32_length, List.length_singleton] at c
      have d : rd8 D (i + 3) = .ok 0 := by
        have e := a
        rw [word32] at e
        have e1 := (At.cons.1 (At.cons.1 (At.cons.1 e).2).2).2
        have e2 := e1.rd8
        have hz : r.1 / 16777216 = 0 := Nat.div_eq_of_lt h1
        rw [hz] at e2
        exact e2
      rw [RSet.runeRangeLoop, if_pos (by omega), At.w32 a, Res.ok_bind, d, Res.ok_bind,
        rangeLoop32 bound l n (i + 5) c (fun x hx => hb x (by simp [hx])) (by omega) (by omega), Res.ok_bind,
        Nat.mod_eq_of_lt (by omega), Nat.add_zero]
      simp only [Res.pure_eq, List.map_cons, u32]
      rw [Nat.mod_eq_of_lt (by omega)]
      simp only [RSet.int32]
      rw [if_pos (by omega)]
      rfl

theorem ranges16_length (l : List (Nat × Nat)) :
    (l.flatMap fun r => word16 r.1 ++ [UInt8.ofNat r.2]).length = 3 * l.length := by
  induction l with
  | nil => rfl
  | cons a l ih =>
    rw [List.flatMap_cons, List.length_append, ih, List.length_append, word16_length, List.length_singleton,
      List.length_cons]; omega
theorem ranges32_length (l : List (Nat × Nat)) :
    (l.flatMap fun r => word32 r.1 ++ [UInt8.ofNat r.2]).length = 5 * l.length := by
  induction l with
  | nil => rfl
  | cons a l ih =>
    rw [List.flatMap_cons, List.length_append, ih, List.length_append, word32_length, List.length_singleton,
      List.length_cons]; omega

theorem At_self (D : Bytes) : At D 0 D := by
  have := At.intro [] D []
  simpa using this

/-- The parts of a set of glyphs. -/
theorem set_at {D : Bytes} {s : EncSet} {k : Nat} (h : s.Ok k) (ha : At D 0 s.glyphBytes) :
    rd8 D 0 = .ok s.ranges.length ∧
    At D 1 (s.ranges.flatMap fun r => word16 r.1 ++ [UInt8.ofNat r.2]) ∧
    rd8 D (1 + s.ranges.length * 3) = .ok s.list.length ∧
    At D (1 + s.ranges.length * 3 + 1) (s.list.flatMap word16) := by
  rw [EncSet.glyphBytes] at ha
  have h1 := h.numRanges
  have h2 := h.numList
  have n1 : (UInt8.ofNat s.ranges.length).toNat = s.ranges.length := by simp; omega
  have n2 : (UInt8.ofNat s.list.length).toNat = s.list.length := by simp; omega
  have a0 := ha.left.rd8
  have a1 := ha.right.left
  have a2 := ha.right.right
  rw [ranges16_length, List.length_singleton] at a2
  have a3 := At_cast a2 (o' := 1 + s.ranges.length * 3) (by omega)
  have a4 := a3.left.rd8
  have a5 := a3.right
  rw [n1] at a0
  rw [n2] at a4
  exact ⟨a0, a1, a4, a5⟩

/-- The parts of a set of code points. -/
theorem set_at32 {D : Bytes} {s : EncSet} {k : Nat} (h : s.Ok k) (ha : At D 0 s.utf8Bytes) :
    rd8 D 0 = .ok s.ranges.length ∧
    At D 1 (s.ranges.flatMap fun r => word32 r.1 ++ [UInt8.ofNat r.2]) ∧
    rd8 D (1 + s.ranges.length * 5) = .ok s.list.length ∧
    At D (1 + s.ranges.length * 5 + 1) (s.list.flatMap word32) := by
  rw [EncSet.utf8Bytes] at ha
  have h1 := h.numRanges
  have h2 := h.numList
  have n1 : (UInt8.ofNat s.ranges.length).toNat = s.ranges.length := by simp; omega
  have n2 : (UInt8.ofNat s.list.length).toNat = s.list.length := by simp; omega
  have a0 := ha.left.rd8
  have a1 := ha.right.left
  have a2 := ha.right.right
  rw [ranges32_length, List.length_singleton] at a2
  have a3 := At_cast a2 (o' := 1 + s.ranges.length * 5) (by omega)
  have a4 := a3.left.rd8
  have a5 := a3.right
  rw [n1] at a0
  rw [n2] at a4
  exact ⟨a0, a1, a4, a5⟩

end Spec
