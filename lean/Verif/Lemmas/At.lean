import Verif.Model.Build
import Verif.Lemmas.Accessors

/-!
# Bytes at a position

`At D o x`: the data has the bytes `x` at position `o`.
-/

namespace BuilderModel
open Go Helpers Spec FontModel

/-- The data has the bytes `x` at position `o`. -/
def At (D : Bytes) (o : Nat) (x : Bytes) : Prop := o ≤ D.length ∧ x <+: D.drop o

theorem At.intro (a x b : Bytes) : At (a ++ (x ++ b)) a.length x :=
  ⟨by simp, by simp⟩

theorem At.len {D : Bytes} {o : Nat} {x : Bytes} (h : At D o x) : o + x.length ≤ D.length := by
  have := h.2.length_le
  have := h.1
  simp at *; omega

theorem At.append {D : Bytes} {o : Nat} {x y : Bytes} :
    At D o (x ++ y) ↔ At D o x ∧ At D (o + x.length) y := by
  constructor
  · intro h
    have hl := h.len
    rw [List.length_append] at hl
    obtain ⟨h1, t, ht⟩ := h
    refine ⟨⟨h1, y ++ t, by rw [← List.append_assoc, ht]⟩, ⟨by omega, t, ?_⟩⟩
    rw [← List.drop_drop, ← ht, List.append_assoc, List.drop_left]
  · rintro ⟨⟨h1, t, ht⟩, ⟨h2, t', ht'⟩⟩
    refine ⟨h1, t', ?_⟩
    rw [← List.drop_drop, ← ht, List.drop_left] at ht'
    rw [List.append_assoc, ht', ht]

theorem At.left {D : Bytes} {o : Nat} {x y : Bytes} (h : At D o (x ++ y)) : At D o x :=
  (At.append.1 h).1
theorem At.right {D : Bytes} {o : Nat} {x y : Bytes} (h : At D o (x ++ y)) :
    At D (o + x.length) y := (At.append.1 h).2

theorem At.cons {D : Bytes} {o : Nat} {a : UInt8} {x : Bytes} :
    At D o (a :: x) ↔ At D o [a] ∧ At D (o + 1) x := At.append (x := [a])

theorem At.sub {D : Bytes} {o : Nat} {x : Bytes} (h : At D o x) : Spec.sub D o x.length = x := by
  obtain ⟨_, t, ht⟩ := h
  rw [Spec.sub, ← ht, List.take_left]

theorem At.get {D : Bytes} {o : Nat} {x : Bytes} (h : At D o x) {i : Nat} (hi : i < x.length) :
    byteAt D (o + i) = (x[i]).toNat := by
  obtain ⟨_, t, ht⟩ := h
  rw [← byteAt_drop, ← ht, byteAt_append_left hi, byteAt_eq hi]

theorem At.byte {D : Bytes} {o : Nat} {a : UInt8} {x : Bytes} (h : At D o (a :: x)) :
    byteAt D o = a.toNat := h.get (i := 0) (by simp)

theorem At.lt {D : Bytes} {o : Nat} {a : UInt8} {x : Bytes} (h : At D o (a :: x)) : o < D.length := by
  have := h.len
  rw [List.length_cons] at this
  omega

theorem append16 (v : Nat) : appendUint16LE [] v = le16 v := rfl
theorem append24 (v : Nat) : appendUint24LE [] v = le24 v := rfl
theorem append32 (v : Nat) : appendUint32LE [] v = le32 v := rfl

theorem byte_val (v : Nat) : (byte v).toNat = v % 256 := byte_toNat v

theorem At.u16 {D : Bytes} {o v : Nat} (h : At D o (appendUint16LE [] v)) :
    u16At D o = v % 65536 := by
  rw [append16] at h
  have h0 := h.get (i := 0) (by simp)
  have h1 := h.get (i := 1) (by simp)
  simp only [le16, List.getElem_cons_zero, List.getElem_cons_succ, byte_val, Nat.add_zero] at h0 h1
  rw [u16At, h0, h1, Nat.shiftRight_eq_div_pow]
  omega

theorem At.u24 {D : Bytes} {o v : Nat} (h : At D o (appendUint24LE [] v)) :
    u24At D o = v % 16777216 := by
  rw [append24] at h
  have h0 := h.get (i := 0) (by simp)
  have h1 := h.get (i := 1) (by simp)
  have h2 := h.get (i := 2) (by simp)
  simp only [le24, List.getElem_cons_zero, List.getElem_cons_succ, byte_val, Nat.add_zero] at h0 h1 h2
  rw [u24At, u16At, h0, h1, h2, Nat.shiftRight_eq_div_pow, Nat.shiftRight_eq_div_pow]
  omega

theorem At.u32 {D : Bytes} {o v : Nat} (h : At D o (appendUint32LE [] v)) :
    u32At D o = v % 4294967296 := by
  rw [append32] at h
  have h0 := h.get (i := 0) (by simp)
  have h1 := h.get (i := 1) (by simp)
  have h2 := h.get (i := 2) (by simp)
  have h3 := h.get (i := 3) (by simp)
  simp only [le32, List.getElem_cons_zero, List.getElem_cons_succ, byte_val, Nat.add_zero] at h0 h1 h2 h3
  rw [u32At, u24At, u16At, h0, h1, h2, h3, Nat.shiftRight_eq_div_pow, Nat.shiftRight_eq_div_pow,
    Nat.shiftRight_eq_div_pow]
  omega

theorem At.rd8 {D : Bytes} {o : Nat} {a : UInt8} {x : Bytes} (h : At D o (a :: x)) :
    rd8 D o = .ok a.toNat := by rw [rd8_eq h.lt, h.byte]
theorem At.rd16 {D : Bytes} {o v : Nat} (h : At D o (appendUint16LE [] v)) :
    FontModel.rd16 D o = .ok (v % 65536) := by rw [rd16_eq h.len, h.u16]
theorem At.rd24 {D : Bytes} {o v : Nat} (h : At D o (appendUint24LE [] v)) :
    FontModel.rd24 D o = .ok (v % 16777216) := by rw [rd24_eq h.len, h.u24]
theorem At.rd32 {D : Bytes} {o v : Nat} (h : At D o (appendUint32LE [] v)) :
    FontModel.rd32 D o = .ok (v % 4294967296) := by rw [rd32_eq h.len, h.u32]

/-! ## Blocks -/

/-- Sum of the first `i` lengths. -/
def psum (l : List Nat) (i : Nat) : Nat := (l.take i).sum

theorem psum_zero (l : List Nat) : psum l 0 = 0 := by simp [psum]
theorem psum_cons (n : Nat) (l : List Nat) (i : Nat) : psum (n :: l) (i + 1) = n + psum l i := by
  simp [psum]
theorem psum_succ {l : List Nat} {i : Nat} (h : i < l.length) : psum l (i + 1) = psum l i + l[i] := by
  rw [psum, psum, List.take_add_one, List.getElem?_eq_getElem h]
  simp only [List.sum_append, Option.toList_some, List.sum_cons, List.sum_nil, Nat.add_zero]
theorem psum_le {l : List Nat} {i j : Nat} (h : i ≤ j) : psum l i ≤ psum l j := by
  obtain ⟨k, rfl⟩ := Nat.exists_eq_add_of_le h
  rw [psum, psum, List.take_add, List.sum_append]
  omega
theorem psum_le_sum (l : List Nat) (i : Nat) : psum l i ≤ l.sum := by
  have : psum l i ≤ psum l (max i l.length) := psum_le (by omega)
  simpa [psum, List.take_of_length_le (Nat.le_max_right i l.length)] using this
theorem psum_all (l : List Nat) : psum l l.length = l.sum := by simp [psum]

theorem flatten_length (l : List Bytes) : l.flatten.length = (l.map List.length).sum := by
  simp [List.length_flatten]

theorem At.block {D : Bytes} : ∀ {blocks : List Bytes} {o : Nat}, At D o blocks.flatten →
    ∀ {i : Nat} (hi : i < blocks.length), At D (o + psum (blocks.map List.length) i) blocks[i]
  | [], _, _, _, hi => by simp at hi
  | x :: xs, o, h, i, hi => by
    rw [List.flatten_cons] at h
    cases i with
    | zero => simpa [psum_zero] using h.left
    | succ i =>
      have := At.block h.right (i := i) (by simpa using hi)
      simpa [List.map_cons, psum_cons, Nat.add_assoc] using this

theorem ends16_length : ∀ (l : List Nat) (off : Nat), (ends16 off l).length = 2 * l.length
  | [], _ => rfl
  | n :: l, off => by
    rw [ends16, List.length_append, ends16_length l, append16, le16_length, List.length_cons]; omega

theorem ends24_length : ∀ (l : List Nat) (off : Nat), (ends24 off l).length = 3 * l.length
  | [], _ => rfl
  | n :: l, off => by
    rw [ends24, List.length_append, ends24_length l, append24, le24_length, List.length_cons]; omega

theorem ends16_at {D : Bytes} : ∀ {l : List Nat} {o off : Nat}, At D o (ends16 off l) →
    ∀ {i : Nat}, i < l.length → u16At D (o + 2 * i) = (off + psum l (i + 1)) % 65536
  | [], _, _, _, _, hi => by simp at hi
  | n :: l, o, off, h, i, hi => by
    rw [ends16] at h
    cases i with
    | zero =>
      have := h.left.u16
      simp only [psum_cons, psum_zero, Nat.mul_zero, Nat.add_zero, u16] at this ⊢
      omega
    | succ i =>
      have := ends16_at h.right (i := i) (by simpa using hi)
      rw [append16, le16_length] at this
      rw [psum_cons, show o + 2 * (i + 1) = o + 2 + 2 * i by omega, this, u16]
      omega

theorem ends24_at {D : Bytes} : ∀ {l : List Nat} {o off : Nat}, At D o (ends24 off l) →
    ∀ {i : Nat}, i < l.length → u24At D (o + 3 * i) = (off + psum l (i + 1)) % 16777216
  | [], _, _, _, _, hi => by simp at hi
  | n :: l, o, off, h, i, hi => by
    rw [ends24] at h
    cases i with
    | zero =>
      have := h.left.u24
      simp only [psum_cons, psum_zero, Nat.mul_zero, Nat.add_zero] at this ⊢
      omega
    | succ i =>
      have := ends24_at h.right (i := i) (by simpa using hi)
      rw [append24, le24_length] at this
      rw [psum_cons, show o + 3 * (i + 1) = o + 3 + 3 * i by omega, this]
      omega

theorem bounds16 {D : Bytes} {l : List Nat} {o : Nat} (h : At D o (ends16 0 l)) (hs : l.sum ≤ 65535)
    {i : Nat} (hi : i < l.length) : start16 D o i = psum l i ∧ end16 D o i = psum l (i + 1) := by
  have h1 := psum_le_sum l (i + 1)
  have h0 := psum_le_sum l i
  have e : end16 D o i = psum l (i + 1) := by
    rw [end16, ends16_at h hi, Nat.zero_add, Nat.mod_eq_of_lt (by omega)]
  refine ⟨?_, e⟩
  cases i with
  | zero => rw [psum_zero]; rfl
  | succ i =>
    rw [start16_succ _ _ _ (by omega), end16, Nat.add_sub_cancel, ends16_at h (by omega), Nat.zero_add,
      Nat.mod_eq_of_lt (by omega)]

theorem bounds24 {D : Bytes} {l : List Nat} {o : Nat} (h : At D o (ends24 0 l))
    (hs : l.sum ≤ 16777215) {i : Nat} (hi : i < l.length) :
    start24 D o i = psum l i ∧ end24 D o i = psum l (i + 1) := by
  have h1 := psum_le_sum l (i + 1)
  have h0 := psum_le_sum l i
  have e : end24 D o i = psum l (i + 1) := by
    rw [end24, ends24_at h hi, Nat.zero_add, Nat.mod_eq_of_lt (by omega)]
  refine ⟨?_, e⟩
  cases i with
  | zero => rw [psum_zero]; rfl
  | succ i =>
    rw [start24_succ _ _ _ (by omega), end24, Nat.add_sub_cancel, ends24_at h (by omega), Nat.zero_add,
      Nat.mod_eq_of_lt (by omega)]

theorem ends8_ok {l : List Nat} : ∀ {off : Nat} {x : Bytes}, ends8 off l = .ok x →
    x.length = l.length ∧ (l ≠ [] → off + l.sum ≤ 255) ∧
    ∀ i (hi : i < l.length) (hx : i < x.length), x[i].toNat = off + psum l (i + 1) := by
  induction l with
  | nil => intro off x h; simp only [ends8, Res.ok.injEq] at h; subst h; simp
  | cons n l ih =>
    intro off x h
    rw [ends8] at h
    split at h
    · cases h
    · rename_i hle
      simp only [Res.bind_eq_ok, Res.pure_eq, Res.ok.injEq] at h
      obtain ⟨r, hr, rfl⟩ := h
      obtain ⟨h1, h2, h3⟩ := ih hr
      refine ⟨by simp [h1], ?_, ?_⟩
      · intro _
        by_cases hl : l = []
        · subst hl; simp; omega
        · have := h2 hl; simp; omega
      · intro i hi hx
        cases i with
        | zero =>
          simp only [List.getElem_cons_zero, psum_cons, psum_zero, byte_val]; omega
        | succ i =>
          simp only [List.getElem_cons_succ, psum_cons]
          rw [h3 i (by simpa using hi) (by simpa using hx)]; omega

theorem mapRes_ok {α β : Type} {f : α → Res β} : ∀ {l : List α} {r : List β}, mapRes f l = .ok r →
    r.length = l.length ∧ ∀ i (hi : i < l.length) (hr : i < r.length), f l[i] = .ok r[i]
  | [], r, h => by simp only [mapRes, Res.ok.injEq] at h; subst h; simp
  | a :: l, r, h => by
    simp only [mapRes, Res.bind_eq_ok, Res.pure_eq, Res.ok.injEq] at h
    obtain ⟨b, hb, bs, hbs, rfl⟩ := h
    obtain ⟨h1, h2⟩ := mapRes_ok hbs
    refine ⟨by simp [h1], ?_⟩
    intro i hi hr
    cases i with
    | zero => simpa using hb
    | succ i => simpa using h2 i (by simpa using hi) (by simpa using hr)

theorem mapRes_of {α β : Type} {f : α → Res β} {g : α → β} : ∀ {l : List α},
    (∀ a ∈ l, f a = .ok (g a)) → mapRes f l = .ok (l.map g)
  | [], _ => rfl
  | a :: l, h => by
    simp [mapRes, h a (by simp), mapRes_of (l := l) fun x hx => h x (by simp [hx])]

end BuilderModel
