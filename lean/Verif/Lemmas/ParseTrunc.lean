import Verif.Lemmas.ParseLayout2

/-! # Truncated and extended data -/

namespace ParseBuf
namespace Prog
open Go
variable {α β : Type}

/-- A failed read is never ignored. -/
def Strict : Prog α → Prop
  | ret _ => True
  | fail _ => True
  | panic _ => True
  | take _ h k => (∀ m D i d r, (h m).flat D i d ≠ .ok r) ∧ ∀ b, Strict (k b)
  | index k => ∀ i, Strict (k i)
  | sync k => Strict (k ())
  | query _ k => ∀ b, Strict (k b)

theorem Strict.bind {p : Prog α} {f : α → Prog β} (hp : Strict p) (hf : ∀ a, Strict (f a)) :
    Strict (p >>= f) := by
  rw [bind_def]
  induction p with
  | ret a => exact hf a
  | fail m => trivial
  | panic m => trivial
  | take n h k ih ik =>
    refine ⟨fun m D i d r hr => ?_, fun b => ik b (hp.2 b)⟩
    have : (h m >>= f).flat D i d = .ok r := hr
    obtain ⟨b, i', d'⟩ := r
    rw [flat_bind_ok] at this
    obtain ⟨a, i1, d1, h1, _⟩ := this
    exact hp.1 _ _ _ _ _ h1
  | index k ik => exact fun i => ik i (hp i)
  | sync k ik => exact ik () hp
  | query v k ik => exact fun b => ik b (hp b)

theorem Strict.ite {c : Prop} [Decidable c] {p q : Prog α} (hp : c → Strict p)
    (hq : ¬ c → Strict q) : Strict (if c then p else q) := by
  split
  · exact hp ‹_›
  · exact hq ‹_›

theorem strict_fail (m : String) : Strict (fail m : Prog α) := trivial
theorem strict_ret (a : α) : Strict (ret a) := trivial
theorem strict_pure (a : α) : Strict (pure a : Prog α) := trivial
theorem strict_advance (n : Nat) : Strict (advanceBytes n) := by
  unfold advanceBytes
  split
  · trivial
  · exact ⟨fun m D i d r => flat_fail, fun _ => trivial⟩
theorem strict_read (n : Nat) : Strict (read n) := ⟨fun m D i d r => flat_fail, fun _ => trivial⟩
theorem strict_ofRes (x : Res α) : Strict (ofRes x) := by cases x <;> trivial
theorem strict_readUint8 : Strict readUint8 := (strict_read 1).bind fun _ => strict_ofRes _
theorem strict_readUint16 : Strict readUint16 := (strict_read 2).bind fun _ => strict_ofRes _
theorem strict_readUint24 : Strict readUint24 := (strict_read 3).bind fun _ => strict_ofRes _
theorem strict_here : Strict ParseModel.here := fun _ => trivial
theorem strict_sync : Strict ParseModel.syncData := trivial
theorem strict_onFont (f : FontModel.Font) (v : FontModel.Font → Res β) :
    Strict (ParseModel.onFont f v) := fun _ => trivial

/-- Solve `Strict` goals. -/
syntax "strict" : tactic
macro_rules
  | `(tactic| strict) => `(tactic| repeat' (first
      | with_reducible exact strict_readUint8 | with_reducible exact strict_readUint16 | with_reducible exact strict_readUint24
      | with_reducible exact strict_advance _ | with_reducible exact strict_fail _ | with_reducible exact strict_here | with_reducible exact strict_sync
      | with_reducible exact strict_pure _ | with_reducible exact strict_ret _ | with_reducible exact strict_read _ | with_reducible exact strict_onFont _ _
      | with_reducible refine Strict.bind ?_ (fun _ => ?_)
      | with_reducible refine Strict.ite (fun _ => ?_) (fun _ => ?_)))

theorem strict_readShortStr : Strict readShortStr := by unfold readShortStr; strict
theorem strict_readString : Strict readString := by unfold readString; strict

/-- A successful strict run depends only on the bytes it passes over. -/
theorem flat_local {p : Prog α} : ∀ {D i d a i' d'}, Strict p → d ≤ i → i ≤ D.length →
    p.flat D i d = .ok (a, i', d') →
    i ≤ i' ∧ d' ≤ i' ∧ i' ≤ D.length ∧
      ∀ D' : Bytes, i' ≤ D'.length → D'.take i' = D.take i' → p.flat D' i d = .ok (a, i', d') := by
  induction p with
  | ret a =>
    intro D i d a' i' d' _ hd hi h
    simp only [flat, Res.ok.injEq, Prod.mk.injEq] at h
    obtain ⟨rfl, rfl, rfl⟩ := h
    exact ⟨Nat.le_refl _, hd, hi, fun _ _ _ => rfl⟩
  | fail m => intro D i d a' i' d' _ hd hi h; simp [flat] at h
  | panic m => intro D i d a' i' d' _ hd hi h; simp [flat] at h
  | take n hh k ih ik =>
    intro D i d a' i' d' hs hd hi h
    simp only [flat] at h
    split at h
    · rename_i hle
      obtain ⟨h1, h2, h3, h4⟩ := ik _ (hs.2 _) (by omega) hle h
      refine ⟨by omega, h2, h3, fun D' hD' ht => ?_⟩
      simp only [flat]
      rw [if_pos (by omega)]
      have : D'.take (i + n) = D.take (i + n) := by
        have e : ∀ X : Bytes, X.take (i + n) = (X.take i').take (i + n) := fun X => by
          rw [List.take_take, Nat.min_eq_left h1]
        rw [e D', e D, ht]
      rw [this]
      exact h4 D' hD' ht
    · exact absurd h (hs.1 _ _ _ _ _)
  | index k ik =>
    intro D i d a' i' d' hs hd hi h
    exact ik _ (hs i) hd hi h
  | sync k ik =>
    intro D i d a' i' d' hs hd hi h
    exact ik _ hs (Nat.le_refl _) hi h
  | query v k ik =>
    intro D i d a' i' d' hs hd hi h
    simp only [flat] at h
    cases hv : v (D.take d) with
    | ok b =>
      rw [hv] at h
      obtain ⟨h1, h2, h3, h4⟩ := ik _ (hs b) hd hi h
      refine ⟨h1, h2, h3, fun D' hD' ht => ?_⟩
      have : D'.take d = D.take d := by
        have e : ∀ X : Bytes, X.take d = (X.take i').take d := fun X => by
          rw [List.take_take, Nat.min_eq_left (by omega)]
        rw [e D', e D, ht]
      simp only [flat]
      rw [this, hv]
      exact h4 D' hD' ht
    | err m => rw [hv] at h; simp at h
    | panic m => rw [hv] at h; simp at h

/-- A strict run does not succeed on data that ends before the run does. -/
theorem flat_short {p : Prog α} {D : Bytes} {i d a i' d' n} (hs : Strict p) (hd : d ≤ i) (hi : i ≤ n)
    (hn : n ≤ D.length) (h : p.flat D i d = .ok (a, i', d')) (hlt : n < i') (r : α × Nat × Nat) :
    p.flat (D.take n) i d ≠ .ok r := by
  intro hr
  obtain ⟨a2, i2, d2⟩ := r
  have hl : (D.take n).length = n := by simp; omega
  obtain ⟨_, _, h3, h4⟩ := flat_local hs hd (by omega) hr
  rw [hl] at h3
  have := h4 D (by omega) (by rw [List.take_take, Nat.min_eq_left h3])
  rw [h] at this
  simp only [Res.ok.injEq, Prod.mk.injEq] at this
  omega

end Prog
end ParseBuf

namespace ParseModel
open Go ParseBuf ParseBuf.Prog FontModel Spec
variable {D : Bytes} {i d i' d' : Nat}

theorem strict_parseRules {n : Nat} (hn : n > 0) (m : Nat) : Strict (parseRules n m) := by
  unfold parseRules
  refine (strict_advance _).bind fun _ => ?_
  refine ⟨fun e D i d r => ?_, fun b => ?_⟩
  · show ¬ (if 0 < n * 8 then _ else _ : Prog Unit).flat D i d = _
    rw [if_pos (by omega)]
    exact flat_fail
  · refine Strict.bind (strict_ofRes _) fun _ => ?_
    strict

theorem strict_parseUpToKerning : Strict parseUpToKerning := by
  unfold parseUpToKerning
  refine Strict.bind ?_ fun _ => Strict.bind ?_ fun _ => Strict.bind ?_ fun _ => Strict.bind ?_ fun _ =>
    Strict.bind ?_ fun _ => Strict.bind ?_ fun _ => Strict.bind ?_ fun _ => strict_pure _
  · unfold parseHeader
    exact (strict_advance _).bind fun _ => strict_readShortStr.bind fun _ =>
      strict_readShortStr.bind fun _ => strict_readShortStr.bind fun _ =>
      strict_readString.bind fun _ => by strict
  · unfold parseMetrics; strict
  · unfold parseColor parseDyes parsePalettes; strict
  · unfold parseGlyphs parseGlyphNames; strict
  · unfold parseSettings parseWords parseSettingDefs; strict
  · unfold parseMapping parseSwitches parseEntries; strict
  · unfold parseRewrites parseBlocks16
    repeat' (first
      | with_reducible exact strict_readUint8 | with_reducible exact strict_readUint16 | with_reducible exact strict_here | with_reducible exact strict_sync
      | with_reducible exact strict_pure _ | with_reducible exact strict_advance _ | with_reducible exact strict_fail _
      | with_reducible exact strict_parseRules ‹_› _
      | with_reducible refine Strict.bind ?_ (fun _ => ?_)
      | with_reducible refine Strict.ite (fun _ => ?_) (fun _ => ?_))

theorem parseKernTable_flat {n : Nat} {u : Unit} :
    (parseKernTable n).flat D i d = .ok (u, i', d') ↔
      d' = d ∧ ((D.length < i + 3 ∧ i' = i) ∨
        (i + 3 ≤ D.length ∧ u24At D i ≤ n * n ∧ i' = i + kernSize D i ∧ i' ≤ D.length)) := by
  unfold parseKernTable
  simp only [flat_bind_ok, flat_readUint24Ig, flat_ite, flat_fail, and_false, false_or,
    flat_advance, flat_pure, Prod.mk.injEq, kernSize]
  constructor
  · rintro ⟨_, _, _, (⟨h1, rfl, rfl, rfl⟩ | ⟨h1, rfl, rfl, rfl⟩), (⟨h2, h3, h4, rfl, rfl⟩ | ⟨h2, _, rfl, rfl⟩)⟩
    · exact ⟨rfl, Or.inr ⟨h1, by omega, by omega, by omega⟩⟩
    · have : u24At D i = 0 := by omega
      exact ⟨rfl, Or.inr ⟨h1, by omega, by omega, by omega⟩⟩
    · omega
    · exact ⟨rfl, Or.inl ⟨h1, rfl⟩⟩
  · rintro ⟨rfl, (⟨h1, rfl⟩ | ⟨h1, h2, rfl, h3⟩)⟩
    · exact ⟨_, _, _, Or.inr ⟨h1, rfl, rfl, rfl⟩, Or.inr ⟨by omega, by trivial, by trivial, by trivial⟩⟩
    · refine ⟨_, _, _, Or.inl ⟨h1, rfl, rfl, rfl⟩, ?_⟩
      by_cases hz : u24At D i = 0
      · exact Or.inr ⟨by omega, by trivial, by omega, by trivial⟩
      · exact Or.inl ⟨by omega, by omega, by omega, by omega, rfl⟩

theorem parseKerning_flat {f f' : Font} {n : Nat} :
    (parseKerning f n).flat D i d = .ok (f', i', d') ↔
      ∃ j d1 d2, (parseKernTable n).flat D i d = .ok ((), j, d1) ∧
        (parseKernTable n).flat D j d1 = .ok ((), i', d2) ∧
        f' = { f with offHorzKern := u32 i, offVertKern := u32 j } ∧ d' = i' := by
  unfold parseKerning
  simp only [flat_bind_ok, flat_here, flat_sync, flat_pure, Prod.mk.injEq]
  constructor
  · rintro ⟨_, _, _, ⟨rfl, rfl, rfl⟩, _, _, _, h1, _, _, _, ⟨rfl, rfl, rfl⟩, _, _, _, h2, _, _, _,
      ⟨rfl, rfl⟩, rfl, rfl, rfl⟩
    exact ⟨_, _, _, h1, h2, rfl, rfl⟩
  · rintro ⟨j, d1, d2, h1, h2, rfl, rfl⟩
    exact ⟨_, _, _, ⟨by trivial, by trivial, by trivial⟩, _, _, _, h1, _, _, _, ⟨by trivial, by trivial, by trivial⟩, _, _, _, h2, (), _, _,
      ⟨by trivial, by trivial⟩, by trivial, by trivial, by trivial⟩

theorem parseBody_flat_iff {f : Font} :
    parseBody.flat D 0 0 = .ok (f, i', d') ↔
      ∃ f0 n i d, parseUpToKerning.flat D 0 0 = .ok ((f0, n), i, d) ∧
        (parseKerning f0 n).flat D i d = .ok (f, i', d') := by
  unfold parseBody
  rw [flat_bind_ok]
  constructor
  · rintro ⟨⟨f0, n⟩, i, d, h1, h2⟩; exact ⟨f0, n, i, d, h1, h2⟩
  · rintro ⟨f0, n, i, d, h1, h2⟩; exact ⟨(f0, n), i, d, h1, h2⟩

/-- One kerning table of accepted data: present, or cut off inside its count. -/
def KernOk (D : Bytes) (o stop : Nat) : Prop :=
  (D.length < o + 3 ∧ stop = o) ∨ (stop = o + kernSize D o ∧ stop ≤ D.length)

theorem parseBody_flat {f : Font} (hD : D.length ≤ maxFontDataSize)
    (h : parseBody.flat D 0 0 = .ok (f, i', d')) :
    Layout D f ∧ Limits D f ∧ KernOk D f.offHorzKern f.offVertKern ∧
      KernOk D f.offVertKern i' ∧ d' = i' ∧ i' ≤ D.length := by
  rw [parseBody_flat_iff] at h
  obtain ⟨f0, n, i, d, h1, h2⟩ := h
  obtain ⟨hL, hM, hn, rfl, hi⟩ := parseUpToKerning_flat hD h1
  rw [parseKerning_flat] at h2
  obtain ⟨j, d1, d2, h3, h4, rfl, rfl⟩ := h2
  rw [parseKernTable_flat] at h3 h4
  have hjl : j ≤ D.length := by omega
  simp only [u32_eq hD hi, u32_eq hD hjl]
  refine ⟨⟨hL.1, hL.2, hL.3, hL.4, hL.5, hL.6, hL.7, hL.8, hL.9, hL.10, hL.11, hL.12, hL.13, hL.14,
    hL.15, hL.16, hL.17⟩, ⟨hM.1, hM.2, hM.3, hM.4, hM.5, hM.6, hM.7, hM.8⟩, ?_, ?_, by trivial, by omega⟩
  · rcases h3.2 with h | h
    · exact Or.inl h
    · exact Or.inr h.2.2
  · rcases h4.2 with h | h
    · exact Or.inl h
    · exact Or.inr h.2.2

end ParseModel
