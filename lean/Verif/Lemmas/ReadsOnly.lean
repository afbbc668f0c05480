import Verif.Lemmas.ParseStream
import Verif.Spec.Whole

/-! # Parsers that only read do not see the chunks -/

namespace ParseBuf
open Go Spec
attribute [local irreducible] FontModel.maxFontDataSize
variable {α : Type}

theorem readsOnly_same {D : Bytes} (hD : D.length ≤ FontModel.maxFontDataSize) (p : Prog α)
    (j1 j2 : Nat → UInt8) : p.ReadsOnly → ∀ s1 s2 i d1 d2, FInv D s1 i d1 → FInv D s2 i d2 →
    SameOutcome (p.exec j1 s1) (p.exec j2 s2) := by
  induction p with
  | ret a => intro _ s1 s2 i d1 d2 h1 h2; exact ⟨rfl, h1.idx.trans h2.idx.symm⟩
  | fail m => intro _ s1 s2 i d1 d2 h1 h2; exact rfl
  | panic m => intro _ s1 s2 i d1 d2 h1 h2; exact rfl
  | take n h k ih ik =>
    intro hp s1 s2 i d1 d2 h1 h2
    obtain ⟨hph, hpk⟩ := hp
    by_cases hn : n = 0
    · subst hn
      simp only [Prog.exec, readUpTo, Nat.add_zero, Nat.le_refl, if_true]
      exact rfl
    · obtain ⟨o1, t1, a1, b1⟩ := readUpTo_flat j1 hD h1 (n := n) (by omega)
      obtain ⟨o2, t2, a2, b2⟩ := readUpTo_flat j2 hD h2 (n := n) (by omega)
      simp only [Prog.exec, a1, a2]
      rcases b1 with ⟨c1, rfl, e1⟩ | ⟨c1, rfl, e1, _⟩
      · rcases b2 with ⟨c2, rfl, e2⟩ | ⟨c2, rfl, e2, _⟩
        · simp only
          have hb : ∀ {s t : PBuf} {d}, s.index = i → FInv D t (i + n) d →
              (t.bytes.take t.index).drop s.index = (D.take (i + n)).drop i := by
            intro s t d hs ht
            obtain ⟨y, hy⟩ := ht.bytes
            rw [ht.idx, hs, ← hy, List.take_append_of_le_length ht.ile]
          rw [hb h1.idx e1, hb h2.idx e2]
          exact ik _ (hpk _) _ _ _ _ _ e1 e2
        · omega
      · rcases b2 with ⟨c2, rfl, e2⟩ | ⟨c2, rfl, e2, _⟩
        · omega
        · exact ih _ (hph _) _ _ _ _ _ e1 e2
  | index k ik =>
    intro hp s1 s2 i d1 d2 h1 h2
    simp only [Prog.exec, h1.idx, h2.idx]
    exact ik _ (hp _) _ _ _ _ _ h1 h2
  | sync k ik =>
    intro hp s1 s2 i d1 d2 h1 h2
    have hs : ∀ {s d}, FInv D s i d → FInv D { s with data := s.bytes } i i := by
      intro s d h
      refine ⟨h.fits, h.fin, h.idx, h.ile, Nat.le_refl _, ?_, List.prefix_refl _, h.rest⟩
      obtain ⟨y, hy⟩ := h.bytes
      rw [← hy, List.take_append_of_le_length h.ile]
      exact List.take_prefix _ _
    exact ik _ hp _ _ _ _ _ (hs h1) (hs h2)
  | query v k ik => intro hp; exact hp.elim

/-- What a run on `D` gives when it does not panic. -/
theorem exec_of_flat_ok (junk : Nat → UInt8) {D : Bytes} (hD : D.length ≤ FontModel.maxFontDataSize)
    {p : Prog α} {s i d a i' d'} (h : FInv D s i d)
    (hw : p.wp ⟨D.take i, d, 0⟩ fun _ _ => True) (hf : p.flat D i d = .ok (a, i', d')) :
    ∃ s', p.exec junk s = .ok (a, s') ∧ FInv D s' i' d' := by
  rcases exec_flat junk hD p s i d 0 h hw with ⟨m, h1, _⟩ | ⟨b, i2, d2, s2, e2, h1, h2, h3, _⟩
  · rw [hf] at h1; simp at h1
  · rw [hf] at h1
    simp only [Res.ok.injEq, Prod.mk.injEq] at h1
    obtain ⟨rfl, rfl, rfl⟩ := h1
    exact ⟨s2, h2, h3⟩

theorem exec_of_flat_not (junk : Nat → UInt8) {D : Bytes} (hD : D.length ≤ FontModel.maxFontDataSize)
    {p : Prog α} {s i d} (h : FInv D s i d)
    (hw : p.wp ⟨D.take i, d, 0⟩ fun _ _ => True) (hf : ∀ x, p.flat D i d ≠ .ok x) :
    ∃ m, p.exec junk s = .err m := by
  rcases exec_flat junk hD p s i d 0 h hw with ⟨m, _, h2⟩ | ⟨b, i2, d2, s2, e2, h1, _⟩
  · exact ⟨m, h2⟩
  · exact absurd h1 (hf _)

theorem outcome_of_flat (junk : Nat → UInt8) {D : Bytes} (hD : D.length ≤ FontModel.maxFontDataSize)
    {p : Prog α} {s i d V} (h : FInv D s i d) (hw : Prog.Adv p)
    (h1 : ∀ a j, V = some (a, j) → p.flat D i d = .ok (a, j, d))
    (h2 : V = none → ∀ a j d', p.flat D i d ≠ .ok (a, j, d')) : Outcome (p.exec junk s) V := by
  cases V with
  | none => exact exec_of_flat_not junk hD h (hw.wp _) fun ⟨a, j, d'⟩ => h2 rfl a j d'
  | some x =>
    obtain ⟨a, j⟩ := x
    obtain ⟨s', h3, h4⟩ := exec_of_flat_ok junk hD h (hw.wp _) (h1 a j rfl)
    exact ⟨s', h3, h4.idx⟩

/-- Reads of a fixed number of bytes. -/
theorem outcome_fixed (junk : Nat → UInt8) {D : Bytes} (hD : D.length ≤ FontModel.maxFontDataSize)
    {p : Prog α} {s i d n} {v : α} (h : FInv D s i d) (hw : Prog.Adv p)
    (hf : ∀ {a j d'}, p.flat D i d = .ok (a, j, d') ↔ i + n ≤ D.length ∧ a = v ∧ j = i + n ∧ d' = d) :
    Outcome (p.exec junk s) (if i + n ≤ D.length then some (v, i + n) else none) := by
  refine outcome_of_flat junk hD h hw ?_ ?_
  · intro a j hv
    split at hv
    · simp only [Option.some.injEq, Prod.mk.injEq] at hv
      rw [hf]; exact ⟨‹_›, hv.1.symm, hv.2.symm, rfl⟩
    · simp at hv
  · intro hv a j d' hx
    split at hv
    · simp at hv
    · rw [hf] at hx; exact absurd hx.1 ‹_›

namespace Prog
open Helpers ParseModel FontModel
variable {D : Bytes} {i d i' d' : Nat}

theorem flat_readUint64 {v : Nat} : readUint64.flat D i d = .ok (v, i', d') ↔
    i + 8 ≤ D.length ∧ v = u32At D i + 4294967296 * u32At D (i + 4) ∧ i' = i + 8 ∧ d' = d :=
  flat_decode (at' := fun b i => u32At b i + 4294967296 * u32At b (i + 4))
    (fun b hb => by
      match b, hb with
      | [b0, b1, b2, b3, b4, b5, b6, b7], _ =>
        rw [decodeUint64LE_eq (by simp)]
        simp [leValue, u32At, u24At, u16At, byteAt]
        omega)
    (fun h => by
      rw [u32At_drop, u32At_drop, u32At_take (by omega), u32At_take (by omega), Nat.add_zero])

theorem flat_readInt32 {v : Int} : readInt32.flat D i d = .ok (v, i', d') ↔
    i + 4 ≤ D.length ∧
      v = (if u32At D i < 2147483648 then (u32At D i : Int) else (u32At D i : Int) - 4294967296) ∧
      i' = i + 4 ∧ d' = d := by
  unfold readInt32
  simp only [flat_bind_ok, flat_readUint32, flat_pure, Prod.mk.injEq]
  constructor
  · rintro ⟨_, _, _, ⟨h1, rfl, rfl, rfl⟩, rfl, rfl, rfl⟩; exact ⟨h1, rfl, rfl, rfl⟩
  · rintro ⟨h1, rfl, rfl, rfl⟩; exact ⟨_, _, _, ⟨h1, rfl, rfl, rfl⟩, by trivial, by trivial, by trivial⟩

theorem flat_readInt8 {v : Int} : readInt8.flat D i d = .ok (v, i', d') ↔
    i + 1 ≤ D.length ∧ v = FontModel.Font.int8 (byteAt D i) ∧ i' = i + 1 ∧ d' = d := by
  have : readInt8 = (readUint8 >>= fun v => (pure (FontModel.Font.int8 v) : Prog Int)) := rfl
  rw [this]
  simp only [flat_bind_ok, flat_readUint8, flat_pure, Prod.mk.injEq]
  constructor
  · rintro ⟨_, _, _, ⟨h1, rfl, rfl, rfl⟩, rfl, rfl, rfl⟩; exact ⟨h1, rfl, rfl, rfl⟩
  · rintro ⟨h1, rfl, rfl, rfl⟩; exact ⟨_, _, _, ⟨h1, rfl, rfl, rfl⟩, by trivial, by trivial, by trivial⟩

theorem flat_readBool {v : Bool} : readBool.flat D i d = .ok (v, i', d') ↔
    (i + 1 ≤ D.length ∧ byteAt D i ≤ 1) ∧ v = (byteAt D i == 1) ∧ i' = i + 1 ∧ d' = d := by
  unfold readBool
  simp only [flat_bind_ok, flat_readUint8, flat_ite, flat_fail, flat_pure, Prod.mk.injEq, and_false,
    or_false]
  constructor
  · rintro ⟨_, _, _, ⟨h1, rfl, rfl, rfl⟩, (⟨h2, rfl, rfl, rfl⟩ | ⟨h2, h3, rfl, rfl, rfl⟩)⟩
    · exact ⟨⟨h1, by omega⟩, by simp [h2], rfl, rfl⟩
    · exact ⟨⟨h1, by omega⟩, by simp [h3], rfl, rfl⟩
  · rintro ⟨⟨h1, h2⟩, rfl, rfl, rfl⟩
    refine ⟨_, _, _, ⟨h1, rfl, rfl, rfl⟩, ?_⟩
    by_cases h0 : byteAt D i = 0
    · exact Or.inl ⟨h0, by simp [h0], by trivial, by trivial⟩
    · have h3 : byteAt D i = 1 := by omega
      exact Or.inr ⟨h0, h3, by simp [h3], by trivial, by trivial⟩

theorem drop_take_eq (D : Bytes) (i n : Nat) : (D.take (i + n)).drop i = (D.drop i).take n := by
  rw [List.drop_take]; congr 1; omega

theorem flat_readShortStr {v : Bytes} : readShortStr.flat D i d = .ok (v, i', d') ↔
    i + 1 ≤ D.length ∧ i + 1 + byteAt D i ≤ D.length ∧ v = (D.drop (i + 1)).take (byteAt D i) ∧
      i' = i + 1 + byteAt D i ∧ d' = d := by
  unfold readShortStr
  simp only [flat_bind_ok, flat_readUint8, flat_ite, flat_pure, flat_read, drop_take_eq,
    Prod.mk.injEq]
  constructor
  · rintro ⟨_, _, _, ⟨h1, rfl, rfl, rfl⟩, (⟨h2, rfl, rfl, rfl⟩ | ⟨h2, h3, rfl, rfl, rfl⟩)⟩
    · exact ⟨h1, by omega, by simp [h2], by omega, rfl⟩
    · exact ⟨h1, h3, rfl, rfl, rfl⟩
  · rintro ⟨h1, h2, rfl, rfl, rfl⟩
    refine ⟨_, _, _, ⟨h1, rfl, rfl, rfl⟩, ?_⟩
    by_cases h0 : byteAt D i = 0
    · exact Or.inl ⟨h0, by simp [h0], by omega, by trivial⟩
    · exact Or.inr ⟨h0, h2, by trivial, by trivial, by trivial⟩

theorem flat_readString {v : Bytes} : readString.flat D i d = .ok (v, i', d') ↔
    i + 2 ≤ D.length ∧ i + 2 + u16At D i ≤ D.length ∧ v = (D.drop (i + 2)).take (u16At D i) ∧
      i' = i + 2 + u16At D i ∧ d' = d := by
  unfold readString
  simp only [flat_bind_ok, flat_readUint16, flat_ite, flat_pure, flat_read, drop_take_eq,
    Prod.mk.injEq]
  constructor
  · rintro ⟨_, _, _, ⟨h1, rfl, rfl, rfl⟩, (⟨h2, rfl, rfl, rfl⟩ | ⟨h2, h3, rfl, rfl, rfl⟩)⟩
    · exact ⟨h1, by omega, by simp [h2], by omega, rfl⟩
    · exact ⟨h1, h3, rfl, rfl, rfl⟩
  · rintro ⟨h1, h2, rfl, rfl, rfl⟩
    refine ⟨_, _, _, ⟨h1, rfl, rfl, rfl⟩, ?_⟩
    by_cases h0 : u16At D i = 0
    · exact Or.inl ⟨h0, by simp [h0], by omega, by trivial⟩
    · exact Or.inr ⟨h0, h2, by trivial, by trivial, by trivial⟩

theorem flat_advanceShortSlice {u : Unit} : advanceShortSlice.flat D i d = .ok (u, i', d') ↔
    i + 1 ≤ D.length ∧ i + 1 + byteAt D i ≤ D.length ∧ i' = i + 1 + byteAt D i ∧ d' = d := by
  unfold advanceShortSlice
  simp only [flat_bind_ok, flat_readUint8, flat_advance]
  constructor
  · rintro ⟨_, _, _, ⟨h1, rfl, rfl, rfl⟩, h2, rfl, rfl⟩
    exact ⟨h1, by omega, rfl, rfl⟩
  · rintro ⟨h1, h2, rfl, rfl⟩
    exact ⟨_, _, _, ⟨h1, rfl, rfl, rfl⟩, by omega, rfl, rfl⟩

end Prog
end ParseBuf

namespace ParseModel
open Go ParseBuf ParseBuf.Prog FontModel Spec

/-- The parser gives the same result on data that agrees up to where it stops. -/
theorem parseBody_local {D D' : Bytes} {f i} (hD : D.length ≤ maxFontDataSize)
    (h : parseBody.flat D 0 0 = .ok (f, i, i)) (hi : i ≤ D'.length) (ht : D'.take i = D.take i)
    (hc : f.offVertKern + 3 ≤ i ∨ D'.length ≤ D.length) :
    parseBody.flat D' 0 0 = .ok (f, i, i) := by
  obtain ⟨f0, N, i0, d0, hu, hk⟩ := parseBody_flat_iff.1 h
  obtain ⟨j, d1, d2, hk1, hk2, hf, hd⟩ := parseKerning_flat.1 hk
  obtain ⟨_, _, _, rfl, hi0⟩ := parseUpToKerning_flat hD hu
  have hkk1 := hk1
  have hkk2 := hk2
  rw [parseKernTable_flat] at hkk1 hkk2
  have hj : j ≤ D.length := by omega
  have eh : f.offHorzKern = d0 := by rw [hf]; exact u32_eq hD hi0
  have ev : f.offVertKern = j := by rw [hf]; exact u32_eq hD hj
  rw [ev] at hc
  have hk0 : d0 ≤ j := by omega
  have hji : j ≤ i := by omega
  have hu' : parseUpToKerning.flat D' 0 0 = .ok ((f0, N), d0, d0) := by
    refine (flat_local strict_parseUpToKerning (Nat.le_refl _) (Nat.zero_le _) hu).2.2.2 _ (by omega) ?_
    have e : ∀ X : Bytes, X.take d0 = (X.take i).take d0 := fun X => by
      rw [List.take_take, Nat.min_eq_left (by omega)]
    rw [e D', e D, ht]
  have hu24 : ∀ o, o + 3 ≤ i → u24At D' o = u24At D o := fun o ho => by
    rw [← u24At_take (D := D') ho, ht, u24At_take ho]
  have hk3 : ∀ o, kernSize D o = 3 + 5 * u24At D o := fun _ => rfl
  have hk3' : ∀ o, kernSize D' o = 3 + 5 * u24At D' o := fun _ => rfl
  have hs0 := hk3 d0
  have hsj := hk3 j
  rw [parseBody_flat_iff]
  refine ⟨f0, N, d0, d0, hu', ?_⟩
  rw [parseKerning_flat]
  refine ⟨j, d1, d2, ?_, ?_, hf, rfl⟩
  · rw [parseKernTable_flat]
    refine ⟨hkk1.1, ?_⟩
    rcases hkk1.2 with ⟨a, b⟩ | ⟨a, b, c, d⟩
    · left; omega
    · right
      rw [hk3', hu24 _ (by omega), ← hk3]
      omega
  · rw [parseKernTable_flat]
    refine ⟨hkk2.1, ?_⟩
    rcases hkk2.2 with ⟨a, b⟩ | ⟨a, b, c, d⟩
    · left; omega
    · right
      rw [hk3', hu24 _ (by omega), ← hk3]
      omega

/-- The reference run for a whole font. -/
theorem whole_flat {D : Bytes} {f : Font} (h : Whole D f) :
    ∃ f0, parseBody.flat D 0 0 = .ok (f0, D.length, D.length) ∧
      f.offVertKern = f0.offVertKern ∧ f.offHorzKern = f0.offHorzKern ∧
      f0.offVertKern + 3 ≤ D.length := by
  obtain ⟨hD, ⟨r, junk, hr, h1⟩, h2⟩ := h
  have hk : kernSize D f.offVertKern = 3 + 5 * u24At D f.offVertKern := rfl
  rcases parseStream_flat junk hr hD with ⟨m, _, b⟩ | ⟨f1, i, s, a1, _, b1, c1⟩
  · rw [b] at h1; simp at h1
  · rcases c1 with ⟨_, c1⟩ | ⟨c1, _⟩
    · rw [c1] at h1
      have hf := Res.ok.inj h1
      have hb := parseBody_flat hD a1
      have ev : f.offVertKern = f1.offVertKern := by rw [← hf]
      rw [ev] at h2 hk
      have hi : i = D.length := by
        rcases hb.2.2.2.1 with ⟨x, y⟩ | ⟨x, y⟩ <;> omega
      subst hi
      exact ⟨f1, a1, ev, by rw [← hf], by omega⟩
    · rw [c1] at h1; simp at h1

end ParseModel
