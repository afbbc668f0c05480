import Verif.Lemmas.Edition
import Verif.Lemmas.ReadsOnly
import Verif.Lemmas.At
import Verif.Lemmas.Names
import Verif.Lemmas.GoMap
import Verif.Spec.Edition

/-! # Edition data: successful runs on complete data -/

namespace Spec
open Go BuilderModel

theorem leBytes_length : ∀ n v, (leBytes n v).length = n
  | 0, _ => rfl
  | n + 1, v => by simp [leBytes, leBytes_length n]

theorem leValue_lt : ∀ b : Bytes, leValue b < 256 ^ b.length
  | [] => by simp [leValue]
  | a :: b => by
    have := leValue_lt b
    have := a.toNat_lt
    simp only [leValue, List.length_cons, Nat.pow_succ]
    omega

theorem leBytes_leValue : ∀ b : Bytes, leBytes b.length (leValue b) = b
  | [] => rfl
  | a :: b => by
    have := a.toNat_lt
    have h1 : (a.toNat + 256 * leValue b) / 256 = leValue b := by omega
    simp only [leBytes, List.length_cons, leValue, h1, leBytes_leValue b]
    congr 1
    apply UInt8.toNat_inj.1
    simp

theorem leValue_leBytes : ∀ n v, v < 256 ^ n → leValue (leBytes n v) = v
  | 0, v, h => by simp at h; simp [leBytes, leValue, h]
  | n + 1, v, h => by
    have := leValue_leBytes n (v / 256) (by rw [Nat.pow_succ] at h; omega)
    simp only [leBytes, leValue, this, UInt8.toNat_ofNat']
    omega

end Spec

namespace ParseBuf.Prog
open Go Spec BuilderModel Helpers ParseModel
variable {D : Bytes} {i d i' d' : Nat}

theorem at_slice {n : Nat} {b : Bytes} : At D i b ∧ b.length = n ∧ i ≤ D.length ↔
    i + n ≤ D.length ∧ b = (D.take (i + n)).drop i := by
  constructor
  · rintro ⟨h, rfl, _⟩
    refine ⟨h.len, ?_⟩
    have := h.sub
    rw [Spec.sub] at this
    rw [List.drop_take, Nat.add_sub_cancel_left, this]
  · rintro ⟨h, rfl⟩
    refine ⟨⟨by omega, ?_⟩, by simp; omega, by omega⟩
    rw [List.drop_take]
    exact List.take_prefix _ _

theorem flat_le {n : Nat} {dec : Bytes → Res Nat} {v : Nat}
    (hdec : ∀ b, b.length = n → dec b = .ok (leValue b)) :
    (read n >>= fun b => ofRes (dec b)).flat D i d = .ok (v, i', d') ↔
      v < 256 ^ n ∧ At D i (leBytes n v) ∧ i' = i + n ∧ d' = d := by
  simp only [flat_bind_ok, flat_read]
  constructor
  · rintro ⟨b, _, _, ⟨h1, rfl, rfl, rfl⟩, h2⟩
    have hl : ((D.take (i + n)).drop i).length = n := by simp; omega
    rw [hdec _ hl] at h2
    simp only [ofRes, flat_ret, Prod.mk.injEq] at h2
    obtain ⟨rfl, rfl, rfl⟩ := h2
    have h3 := leValue_lt ((D.take (i + n)).drop i)
    have h4 := leBytes_leValue ((D.take (i + n)).drop i)
    rw [hl] at h3 h4
    refine ⟨h3, ?_, rfl, rfl⟩
    rw [h4]
    exact (at_slice.2 ⟨h1, rfl⟩).1
  · rintro ⟨h1, h2, rfl, rfl⟩
    obtain ⟨h3, h4⟩ := at_slice.1 ⟨h2, leBytes_length n v, h2.1⟩
    refine ⟨_, _, _, ⟨h3, rfl, rfl, rfl⟩, ?_⟩
    rw [← h4, hdec _ (leBytes_length n v), leValue_leBytes n v h1]
    rfl

theorem at_u8 {v : Nat} : readUint8.flat D i d = .ok (v, i', d') ↔
    v < 256 ∧ At D i (leBytes 1 v) ∧ i' = i + 1 ∧ d' = d :=
  flat_le (n := 1) (fun b hb => by
    match b, hb with
    | [b0], _ => simp [FontModel.rd8, Go.idx, leValue])

theorem at_u16 {v : Nat} : readUint16.flat D i d = .ok (v, i', d') ↔
    v < 65536 ∧ At D i (leBytes 2 v) ∧ i' = i + 2 ∧ d' = d :=
  flat_le (n := 2) (fun b hb => by rw [decodeUint16LE_eq (by omega), List.take_of_length_le (by omega)])

theorem at_u32 {v : Nat} : readUint32.flat D i d = .ok (v, i', d') ↔
    v < 4294967296 ∧ At D i (leBytes 4 v) ∧ i' = i + 4 ∧ d' = d :=
  flat_le (n := 4) (fun b hb => by rw [decodeUint32LE_eq (by omega), List.take_of_length_le (by omega)])

theorem at_u64 {v : Nat} : readUint64.flat D i d = .ok (v, i', d') ↔
    v < 18446744073709551616 ∧ At D i (leBytes 8 v) ∧ i' = i + 8 ∧ d' = d :=
  flat_le (n := 8) (fun b hb => by rw [decodeUint64LE_eq (by omega), List.take_of_length_le (by omega)])

theorem at_i8 {v : Int} : readInt8.flat D i d = .ok (v, i', d') ↔
    (-128 ≤ v ∧ v ≤ 127) ∧ At D i (leBytes 1 (v % 256).toNat) ∧ i' = i + 1 ∧ d' = d := by
  have : readInt8 = (readUint8 >>= fun v => (pure (FontModel.Font.int8 v) : Prog Int)) := rfl
  rw [this]
  simp only [flat_bind_ok, at_u8, flat_pure, Prod.mk.injEq]
  constructor
  · rintro ⟨n, _, _, ⟨h1, h2, rfl, rfl⟩, rfl, rfl, rfl⟩
    have h3 : (FontModel.Font.int8 n % 256).toNat = n := by rw [FontModel.Font.int8]; split <;> omega
    refine ⟨?_, by rw [h3]; exact h2, rfl, rfl⟩
    rw [FontModel.Font.int8]; split <;> omega
  · rintro ⟨h1, h2, rfl, rfl⟩
    refine ⟨_, _, _, ⟨by omega, h2, rfl, rfl⟩, ?_, rfl, rfl⟩
    rw [FontModel.Font.int8]; split <;> omega

theorem at_str {s : Bytes} : readShortStr.flat D i d = .ok (s, i', d') ↔
    s.length < 256 ∧ At D i (shortStr s) ∧ i' = i + (shortStr s).length ∧ d' = d := by
  unfold readShortStr
  simp only [flat_bind_ok, at_u8, flat_ite, flat_pure, flat_read, Prod.mk.injEq, shortStr, At.append,
    leBytes_length, List.length_append]
  constructor
  · rintro ⟨n, _, _, ⟨h1, h2, rfl, rfl⟩, (⟨rfl, rfl, rfl, rfl⟩ | ⟨h3, h4, rfl, rfl, rfl⟩)⟩
    · have := h2.len
      exact ⟨by simp, ⟨h2, ⟨by simpa [leBytes_length] using this, by simp⟩⟩, rfl, rfl⟩
    · obtain ⟨h5, h6, _⟩ := at_slice.2 ⟨h4, rfl⟩
      rw [h6]
      exact ⟨h1, ⟨h2, h5⟩, by omega, rfl⟩
  · rintro ⟨h1, ⟨h2, h3⟩, rfl, rfl⟩
    refine ⟨s.length, _, _, ⟨h1, h2, rfl, rfl⟩, ?_⟩
    obtain ⟨h4, h5⟩ := at_slice.1 ⟨h3, rfl, h3.1⟩
    by_cases h0 : s.length = 0
    · have := List.eq_nil_of_length_eq_zero h0
      exact Or.inl ⟨h0, this, by omega, rfl⟩
    · exact Or.inr ⟨h0, h4, h5, by omega, rfl⟩

theorem flat_attempt_ok {α : Type} {p : Prog α} {a : α} : ∀ {i d}, p.attempt.flat D i d = .ok (.ok a, i', d') ↔
    p.flat D i d = .ok (a, i', d') := by
  induction p with
  | ret b => intro i d; simp [attempt, flat]
  | fail m => intro i d; simp [attempt, flat]
  | panic m => intro i d; simp [attempt, flat]
  | take n h k ih ik =>
    intro i d
    simp only [attempt, flat]
    split
    · exact ik _
    · exact ih _
  | index k ik => intro i d; exact ik _
  | sync k ik => intro i d; exact ik _
  | query v k ik =>
    intro i d
    simp only [attempt, flat]
    cases v (D.take d) with
    | ok b => exact ik _
    | err m => simp
    | panic m => simp

end ParseBuf.Prog

namespace EditionModel
open Go ParseBuf ParseBuf.Prog BuilderModel Spec

/-- A part of the method runs on `D` from `i` to `i'` without error. -/
def Ed.Runs {α : Type} (p : Ed α) (D : Bytes) (i d : Nat) (e : Editor) (a : α) (i' d' : Nat) (e' : Editor) : Prop :=
  (p e).flat D i d = .ok ((.ok a, e'), i', d')

namespace Ed
variable {α β : Type} {D : Bytes} {i d i' d' : Nat} {e e' : Editor}

theorem Runs.bind {p : Ed α} {f : α → Ed β} {b : β} : Runs (p >>= f) D i d e b i' d' e' ↔
    ∃ a j dj ej, Runs p D i d e a j dj ej ∧ Runs (f a) D j dj ej b i' d' e' := by
  show ((p e).bind _).flat D i d = _ ↔ _
  rw [← Prog.bind_def, flat_bind_ok]
  constructor
  · rintro ⟨⟨r, ej⟩, j, dj, h1, h2⟩
    cases r with
    | ok a => exact ⟨a, j, dj, ej, h1, h2⟩
    | error m => simp [flat] at h2
  · rintro ⟨a, j, dj, ej, h1, h2⟩
    exact ⟨(.ok a, ej), j, dj, h1, h2⟩

theorem Runs.pure {a b : α} : Runs (pure a) D i d e b i' d' e' ↔ b = a ∧ i' = i ∧ d' = d ∧ e' = e := by
  show (Res.ok _ = _) ↔ _
  simp only [Res.ok.injEq, Prod.mk.injEq, Except.ok.injEq]
  constructor
  · rintro ⟨⟨rfl, rfl⟩, rfl, rfl⟩; exact ⟨rfl, rfl, rfl, rfl⟩
  · rintro ⟨rfl, rfl, rfl, rfl⟩; exact ⟨⟨rfl, rfl⟩, rfl, rfl⟩

theorem Runs.lift {p : Prog α} {a : α} : Runs (lift p) D i d e a i' d' e' ↔
    p.flat D i d = .ok (a, i', d') ∧ e' = e := by
  show ((p.attempt).bind _).flat D i d = _ ↔ _
  rw [← Prog.bind_def, flat_bind_ok]
  constructor
  · rintro ⟨r, j, dj, h1, h2⟩
    simp only [flat, Res.ok.injEq, Prod.mk.injEq] at h2
    obtain ⟨⟨rfl, rfl⟩, rfl, rfl⟩ := h2
    exact ⟨flat_attempt_ok.1 h1, rfl⟩
  · rintro ⟨h1, rfl⟩
    exact ⟨_, _, _, flat_attempt_ok.2 h1, rfl⟩

theorem Runs.error {m : String} {a : α} : ¬ Runs (error m) D i d e a i' d' e' := by
  intro h
  change Res.ok _ = _ at h
  simp at h

theorem Runs.panic {m : String} {a : α} : ¬ Runs (Ed.panic m) D i d e a i' d' e' := by
  intro h
  change Res.panic _ = _ at h
  simp at h

theorem Runs.get {a : Editor} : Runs get D i d e a i' d' e' ↔ a = e ∧ i' = i ∧ d' = d ∧ e' = e := Runs.pure

theorem Runs.modify {f : Editor → Editor} {a : Unit} : Runs (modify f) D i d e a i' d' e' ↔
    i' = i ∧ d' = d ∧ e' = f e := by
  show (Res.ok _ = _) ↔ _
  simp only [Res.ok.injEq, Prod.mk.injEq, true_and]
  constructor
  · rintro ⟨rfl, rfl, rfl⟩; exact ⟨rfl, rfl, rfl⟩
  · rintro ⟨rfl, rfl, rfl⟩; exact ⟨rfl, rfl, rfl⟩

theorem Runs.ofRes {x : Res α} {a : α} : Runs (Ed.ofRes x) D i d e a i' d' e' ↔
    x = .ok a ∧ i' = i ∧ d' = d ∧ e' = e := by
  cases x with
  | ok b =>
    rw [Ed.ofRes, Runs.pure, Res.ok.injEq, eq_comm (a := a)]
  | err m => simp [Ed.ofRes, Runs.error]
  | panic m => simp [Ed.ofRes, Runs.panic]

theorem Runs.ite {c : Prop} [Decidable c] {p q : Ed α} {a : α} : Runs (if c then p else q) D i d e a i' d' e' ↔
    (c ∧ Runs p D i d e a i' d' e') ∨ (¬ c ∧ Runs q D i d e a i' d' e') := by
  by_cases h : c <;> simp [h]

end Ed

open Ed
variable {D : Bytes} {i d i' d' : Nat} {e e' : Editor}

theorem spacedName_iff (s : Bytes) : Names.validateBasicSpacedName s = .ok () ↔ SpacedName s := by
  unfold Names.validateBasicSpacedName SpacedName
  by_cases h1 : s.length > 32
  · rw [if_pos h1]; constructor
    · simp
    · rintro ⟨_, h, _⟩; omega
  rw [if_neg h1]
  by_cases h2 : s.length = 0
  · rw [if_pos h2]; constructor
    · simp
    · rintro ⟨h, _⟩; omega
  rw [if_neg h2, C07.spaced_loop]
  constructor
  · intro h; exact ⟨by omega, by omega, h⟩
  · rintro ⟨_, _, h⟩; exact h

theorem readName_runs {s : Bytes} : readName.Runs D i d e s i' d' e' ↔
    SpacedName s ∧ At D i (shortStr s) ∧ i' = i + (shortStr s).length ∧ d' = d ∧ e' = e := by
  unfold readName
  simp only [Runs.bind, Runs.lift, at_str, Runs.ofRes, Runs.pure]
  constructor
  · rintro ⟨_, _, _, _, ⟨⟨h1, h2, rfl, rfl⟩, rfl⟩, ⟨⟩, _, _, _, ⟨h3, rfl, rfl, rfl⟩, rfl, rfl, rfl, rfl⟩
    exact ⟨(spacedName_iff _).1 h3, h2, rfl, rfl, rfl⟩
  · rintro ⟨h1, h2, rfl, rfl, rfl⟩
    have := h1.2.1
    exact ⟨_, _, _, _, ⟨⟨by omega, h2, rfl, rfl⟩, rfl⟩, _, _, _, _, ⟨(spacedName_iff _).2 h1, rfl, rfl, rfl⟩,
      rfl, rfl, rfl, rfl⟩

/-- A loop whose rounds read one element each; at most `N` rounds. -/
theorem loop_runs {β : Type} {f : Nat → Ed Unit} {enc : β → Bytes} {P : Editor → Prop} {N : Nat}
    {ok : β → Prop} {step : Nat → Editor → β → Editor}
    (hf : ∀ i d k u i' d' e e', k < N → P e → ((f k).Runs D i d e u i' d' e' ↔
      ∃ x, ok x ∧ At D i (enc x) ∧ i' = i + (enc x).length ∧ d' = d ∧ e' = step k e x))
    (hP : ∀ k e x, k < N → P e → ok x → P (step k e x)) : ∀ {n k i d u i' d' e e'}, n + k ≤ N → P e → i ≤ D.length →
    ((loop n k f).Runs D i d e u i' d' e' ↔
      ∃ l : List β, l.length = n ∧ (∀ x ∈ l, ok x) ∧ At D i (l.flatMap enc) ∧
        i' = i + (l.flatMap enc).length ∧ d' = d ∧
        e' = (l.foldl (fun s x => (s.1 + 1, step s.1 s.2 x)) (k, e)).2)
  | 0, k, i, d, u, i', d', e, e', _, h, hi => by
    rw [loop, Runs.pure]
    constructor
    · rintro ⟨_, rfl, rfl, rfl⟩
      exact ⟨[], rfl, by simp, ⟨hi, by simp⟩, by simp, rfl, rfl⟩
    · rintro ⟨l, hl, _, _, h2, h3, h4⟩
      obtain rfl := List.eq_nil_of_length_eq_zero hl
      exact ⟨by simp, by simpa using h2, h3, h4⟩
  | n + 1, k, i, d, u, i', d', e, e', hN, h, hi => by
    have hk : k < N := by omega
    have hN' : n + (k + 1) ≤ N := by omega
    rw [loop, Runs.bind]
    constructor
    · rintro ⟨_, j, dj, ej, h1, h2⟩
      obtain ⟨x, o1, a1, rfl, rfl, rfl⟩ := (hf _ _ _ _ _ _ _ _ hk h).1 h1
      obtain ⟨l, hl, o2, a2, rfl, rfl, rfl⟩ := (loop_runs hf hP hN' (hP _ _ _ hk h o1) a1.len).1 h2
      refine ⟨x :: l, by simp [hl], ?_, ?_, by simp; omega, rfl, rfl⟩
      · intro y hy
        rcases List.mem_cons.1 hy with rfl | hy
        · exact o1
        · exact o2 y hy
      · rw [List.flatMap_cons, At.append]; exact ⟨a1, a2⟩
    · rintro ⟨l, hl, o, a, rfl, rfl, rfl⟩
      match l, hl with
      | x :: l, hl =>
        rw [List.flatMap_cons, At.append] at a
        have o1 := o x (by simp)
        refine ⟨(), _, _, _, (hf _ _ _ _ _ _ _ _ hk h).2 ⟨x, o1, a.1, rfl, rfl, rfl⟩,
          (loop_runs hf hP hN' (hP _ _ _ hk h o1) a.1.len).2
            ⟨l, by simpa using hl, fun y hy => o y (by simp [hy]), a.2, by simp [Nat.add_assoc], rfl, rfl⟩⟩

theorem categoryName_runs {k : Nat} {u : Unit} : (categoryName k).Runs D i d e u i' d' e' ↔
    ∃ x, SpacedName x ∧ At D i (shortStr x) ∧ i' = i + (shortStr x).length ∧ d' = d ∧
      e' = { e with categories := e.categories ++ [(x, 0)] } := by
  unfold categoryName
  simp only [Runs.bind, readName_runs, Runs.modify]
  constructor
  · rintro ⟨x, _, _, _, ⟨h1, h2, rfl, rfl, rfl⟩, rfl, rfl, rfl⟩; exact ⟨x, h1, h2, rfl, rfl, rfl⟩
  · rintro ⟨x, h1, h2, rfl, rfl, rfl⟩; exact ⟨x, _, _, _, ⟨h1, h2, rfl, rfl, rfl⟩, rfl, rfl, rfl⟩

theorem className_runs {k : Nat} {u : Unit} : (className k).Runs D i d e u i' d' e' ↔
    ∃ x, SpacedName x ∧ At D i (shortStr x) ∧ i' = i + (shortStr x).length ∧ d' = d ∧
      e' = { e with classNames := e.classNames ++ [x],
                    builder := { e.builder with kernClasses := e.builder.kernClasses ++ [0] } } := by
  unfold className
  simp only [Runs.bind, readName_runs, Runs.modify]
  constructor
  · rintro ⟨x, _, _, _, ⟨h1, h2, rfl, rfl, rfl⟩, rfl, rfl, rfl⟩; exact ⟨x, h1, h2, rfl, rfl, rfl⟩
  · rintro ⟨x, h1, h2, rfl, rfl, rfl⟩; exact ⟨x, _, _, _, ⟨h1, h2, rfl, rfl, rfl⟩, rfl, rfl, rfl⟩

theorem categorySize_runs {k : Nat} {u : Unit} (hk : k < e.categories.length) :
    (categorySize k).Runs D i d e u i' d' e' ↔
    ∃ x, x < 65536 ∧ At D i (leBytes 2 x) ∧ i' = i + (leBytes 2 x).length ∧ d' = d ∧
      e' = { e with categories := e.categories.modify k fun c => (c.1, x) } := by
  unfold categorySize
  simp only [Runs.bind, Runs.lift, at_u16, Runs.get, Runs.ite, Runs.panic, Runs.modify, and_false, false_or,
    leBytes_length]
  constructor
  · rintro ⟨x, _, _, _, ⟨⟨h1, h2, rfl, rfl⟩, rfl⟩, _, _, _, _, ⟨rfl, rfl, rfl, rfl⟩, _, rfl, rfl, rfl⟩
    exact ⟨x, h1, h2, rfl, rfl, rfl⟩
  · rintro ⟨x, h1, h2, rfl, rfl, rfl⟩
    exact ⟨x, _, _, _, ⟨⟨h1, h2, rfl, rfl⟩, rfl⟩, _, _, _, _, ⟨rfl, rfl, rfl, rfl⟩, by omega, rfl, rfl, rfl⟩

theorem classValue_runs {k : Nat} {u : Unit} (hk : k < e.builder.kernClasses.length) :
    (classValue k).Runs D i d e u i' d' e' ↔
    ∃ x : Int, (-128 ≤ x ∧ x ≤ 127) ∧ At D i (leBytes 1 (x % 256).toNat) ∧
      i' = i + (leBytes 1 (x % 256).toNat).length ∧ d' = d ∧
      e' = { e with builder := { e.builder with kernClasses := e.builder.kernClasses.modify k fun _ => x } } := by
  unfold classValue
  simp only [Runs.bind, Runs.lift, at_i8, Runs.get, Runs.ite, Runs.panic, Runs.modify, and_false, false_or,
    leBytes_length]
  constructor
  · rintro ⟨x, _, _, _, ⟨⟨h1, h2, rfl, rfl⟩, rfl⟩, _, _, _, _, ⟨rfl, rfl, rfl, rfl⟩, _, rfl, rfl, rfl⟩
    exact ⟨x, h1, h2, rfl, rfl, rfl⟩
  · rintro ⟨x, h1, h2, rfl, rfl, rfl⟩
    exact ⟨x, _, _, _, ⟨⟨h1, h2, rfl, rfl⟩, rfl⟩, _, _, _, _, ⟨rfl, rfl, rfl, rfl⟩, by omega, rfl, rfl, rfl⟩

theorem conditionName_runs {k : Nat} {u : Unit} (hk : k < e.conditionNames.length) :
    (conditionName k).Runs D i d e u i' d' e' ↔
    ∃ x, SpacedName x ∧ At D i (shortStr x) ∧ i' = i + (shortStr x).length ∧ d' = d ∧
      e' = { e with conditionNames := e.conditionNames.set k x } := by
  unfold conditionName
  simp only [Runs.bind, readName_runs, Runs.get, Runs.ite, Runs.panic, Runs.modify, and_false, false_or]
  constructor
  · rintro ⟨x, _, _, _, ⟨h1, h2, rfl, rfl, rfl⟩, _, _, _, _, ⟨rfl, rfl, rfl, rfl⟩, _, rfl, rfl, rfl⟩
    exact ⟨x, h1, h2, rfl, rfl, rfl⟩
  · rintro ⟨x, h1, h2, rfl, rfl, rfl⟩
    exact ⟨x, _, _, _, ⟨h1, h2, rfl, rfl, rfl⟩, _, _, _, _, ⟨rfl, rfl, rfl, rfl⟩, by omega, rfl, rfl, rfl⟩

/-- What one pair of a table does to the pairs. -/
def classStep' (order : List Nat) (pairs : GoMap (Nat × Nat) KernPair) (p : PairClass) : GoMap (Nat × Nat) KernPair :=
  setClass pairs (order.getD p.first 0, order.getD p.second 0) p.cls

theorem kernPair_runs {k : Nat} {u : Unit} {update} :
    (kernPair update k).Runs D i d e u i' d' e' ↔
    ∃ x : PairClass, x.Valid e.builder.glyphOrder.length ∧ At D i x.bytes ∧ i' = i + x.bytes.length ∧ d' = d ∧
      e' = { e with builder := update (fun pairs => classStep' e.builder.glyphOrder pairs x) e.builder } := by
  unfold kernPair
  simp only [Runs.bind, Runs.lift, at_u16, Runs.get, Runs.ite, Runs.error, Runs.modify, Runs.ofRes, and_false, false_or,
    PairClass.Valid, PairClass.Fits, PairClass.bytes, At.append, leBytes_length, List.length_append, idx_eq_ok, classStep']
  constructor
  · rintro ⟨a, _, _, _, ⟨⟨h1, h2, rfl, rfl⟩, rfl⟩, b, _, _, _, ⟨⟨h3, h4, rfl, rfl⟩, rfl⟩, c, _, _, _,
      ⟨⟨h5, h6, rfl, rfl⟩, rfl⟩, h7, _, _, _, _, ⟨rfl, rfl, rfl, rfl⟩, g, _, _, _, ⟨h8, rfl, rfl, rfl⟩,
      g', _, _, _, ⟨h9, rfl, rfl, rfl⟩, rfl, rfl, rfl⟩
    refine ⟨⟨a, b, c⟩, ⟨⟨h1, h3, Nat.pos_of_ne_zero h7, h5⟩, (List.getElem?_eq_some_iff.1 h8).1,
      (List.getElem?_eq_some_iff.1 h9).1⟩, ⟨h2, h4, h6⟩, rfl, rfl, ?_⟩
    simp [List.getD_eq_getElem?_getD, h8, h9]
  · rintro ⟨⟨a, b, c⟩, ⟨⟨h1, h3, h7, h5⟩, g1, g2⟩, ⟨h2, h4, h6⟩, rfl, rfl, rfl⟩
    refine ⟨a, _, _, _, ⟨⟨h1, h2, rfl, rfl⟩, rfl⟩, b, _, _, _, ⟨⟨h3, h4, rfl, rfl⟩, rfl⟩, c, _, _, _,
      ⟨⟨h5, h6, rfl, rfl⟩, rfl⟩, by simp only at h7; omega, _, _, _, _, ⟨rfl, rfl, rfl, rfl⟩, _, _, _, _,
      ⟨List.getElem?_eq_getElem g1, rfl, rfl, rfl⟩,
      _, _, _, _, ⟨List.getElem?_eq_getElem g2, rfl, rfl, rfl⟩, rfl, rfl, ?_⟩
    simp [List.getD_eq_getElem?_getD, g1, g2]

theorem fold_append {α : Type} {get : Editor → List α} {put : List α → Editor → Editor} {β : Type} {g : β → α}
    (h1 : ∀ l e, get (put l e) = l) (h2 : ∀ l l' e, put l (put l' e) = put l e) (h3 : ∀ e, put (get e) e = e) :
    ∀ (l : List β) k e, (l.foldl (fun (s : Nat × Editor) x => (s.1 + 1, put (get s.2 ++ [g x]) s.2)) (k, e)).2 =
      put (get e ++ l.map g) e
  | [], k, e => by simp [h3]
  | x :: l, k, e => by
    rw [List.foldl_cons, fold_append h1 h2 h3 l]
    simp [h1, h2]

theorem modify_mid {α : Type} : ∀ (pre rest : List α) (c : α) (f : α → α),
    (pre ++ c :: rest).modify pre.length f = (pre ++ [f c]) ++ rest
  | [], rest, c, f => by simp
  | a :: pre, rest, c, f => by simpa using modify_mid pre rest c f

theorem fold_modify {α : Type} {get : Editor → List α} {put : List α → Editor → Editor} {β : Type} {g : β → α → α}
    (h1 : ∀ l e, get (put l e) = l) (h2 : ∀ l l' e, put l (put l' e) = put l e) (h3 : ∀ e, put (get e) e = e) :
    ∀ (l : List β) (pre rest : List α) k e, get e = pre ++ rest → pre.length = k → rest.length = l.length →
    (l.foldl (fun (s : Nat × Editor) x => (s.1 + 1, put ((get s.2).modify s.1 (g x)) s.2)) (k, e)).2 =
      put (pre ++ List.zipWith (fun c x => g x c) rest l) e
  | [], pre, rest, k, e, h, _, hl => by
    obtain rfl := List.eq_nil_of_length_eq_zero hl
    simp only [List.foldl_nil, List.zipWith_nil_left, ← h, h3]
  | x :: l, pre, c :: rest, k, e, h, hk, hl => by
    have hm : (get e).modify k (g x) = (pre ++ [g x c]) ++ rest := by
      rw [h, ← hk]
      exact modify_mid pre rest c (g x)
    rw [List.foldl_cons, fold_modify h1 h2 h3 l (pre ++ [g x c]) rest (k + 1) _ (by rw [h1, hm])
      (by simp [hk]) (by simpa using hl), h2]
    simp

theorem fold_horz : ∀ (l : List PairClass) k (e : Editor),
    (l.foldl (fun (s : Nat × Editor) x => (s.1 + 1,
      { s.2 with builder := onHorz (fun pairs => classStep' s.2.builder.glyphOrder pairs x) s.2.builder })) (k, e)).2 =
      { e with builder := onHorz (fun pairs => l.foldl (classStep' e.builder.glyphOrder) pairs) e.builder }
  | [], k, e => rfl
  | x :: l, k, e => by rw [List.foldl_cons, fold_horz l]; rfl

theorem fold_vert : ∀ (l : List PairClass) k (e : Editor),
    (l.foldl (fun (s : Nat × Editor) x => (s.1 + 1,
      { s.2 with builder := onVert (fun pairs => classStep' s.2.builder.glyphOrder pairs x) s.2.builder })) (k, e)).2 =
      { e with builder := onVert (fun pairs => l.foldl (classStep' e.builder.glyphOrder) pairs) e.builder }
  | [], k, e => rfl
  | x :: l, k, e => by rw [List.foldl_cons, fold_vert l]; rfl

theorem zip_parts {α β : Type} {a : List α} {b : List β} (h : a.length = b.length) :
    ∃ l : List (α × β), a = l.map (·.1) ∧ b = l.map (·.2) ∧ l.length = a.length :=
  ⟨a.zip b, by rw [List.map_fst_zip (by omega)], by rw [List.map_snd_zip (by omega)], by simp; omega⟩

theorem categories_runs {n : Nat} {u : Unit} (hi : i ≤ D.length) (he : e.categories = []) :
    (Ed.bind (loop n 0 categoryName) fun _ => loop n 0 categorySize).Runs D i d e u i' d' e' ↔
    ∃ l : List (Bytes × Nat), l.length = n ∧ (∀ c ∈ l, SpacedName c.1 ∧ c.2 < 65536) ∧
      At D i (l.flatMap (fun c => shortStr c.1) ++ l.flatMap fun c => leBytes 2 c.2) ∧
      i' = i + (l.flatMap (fun c => shortStr c.1) ++ l.flatMap fun c => leBytes 2 c.2).length ∧ d' = d ∧
      e' = { e with categories := l } := by
  refine (Runs.bind (p := loop n 0 categoryName)).trans ?_
  have hA : ∀ {j dj ej} {u : Unit}, (loop n 0 categoryName).Runs D i d e u j dj ej ↔ _ := fun {j dj ej u} =>
    loop_runs (N := n) (P := fun _ => True) (fun _ _ _ _ _ _ _ _ _ _ => categoryName_runs)
      (fun _ _ _ _ _ _ => trivial) (Nat.le_refl _) trivial hi
  have hB : ∀ {i d i' d' e'} {u : Unit} {e : Editor}, e.categories.length = n → i ≤ D.length →
      ((loop n 0 categorySize).Runs D i d e u i' d' e' ↔ _) := fun {i d i' d' e' u e} he hi =>
    loop_runs (N := n) (P := fun e => e.categories.length = n)
      (fun _ _ _ _ _ _ _ _ h hP => categorySize_runs (by omega))
      (fun _ _ _ _ hP _ => by simpa using hP) (Nat.le_refl _) he hi
  have fA := fun l => fold_append (get := Editor.categories) (put := fun l e => { e with categories := l })
    (g := fun x : Bytes => (x, 0)) (fun _ _ => rfl) (fun _ _ _ => rfl) (fun _ => rfl) l 0 e
  have fB := fun l rest e h => fold_modify (get := Editor.categories) (put := fun l e => { e with categories := l })
    (g := fun (x : Nat) c => (c.1, x)) (fun _ _ => rfl) (fun _ _ _ => rfl) (fun _ => rfl) l [] rest 0 e h rfl
  simp only [he, List.nil_append] at fA fB
  constructor
  · rintro ⟨_, j, dj, ej, h1, h2⟩
    obtain ⟨l1, n1, o1, a1, rfl, rfl, rfl⟩ := hA.1 h1
    rw [fA] at h2
    obtain ⟨l2, n2, o2, a2, rfl, rfl, rfl⟩ := (hB (by simp [n1]) a1.len).1 h2
    rw [fB _ (l1.map fun x => (x, 0)) _ rfl (by simp; omega)]
    obtain ⟨l, rfl, rfl, hl⟩ := zip_parts (n1.trans n2.symm)
    simp only [List.flatMap_map] at a1 a2 ⊢
    refine ⟨l, by simpa using n1, fun c hc => ⟨o1 _ (List.mem_map_of_mem hc), o2 _ (List.mem_map_of_mem hc)⟩,
      At.append.2 ⟨a1, a2⟩, by simp; omega, by trivial, ?_⟩
    simp [List.zipWith_map, List.zipWith_self]
  · rintro ⟨l, hn, o, a, rfl, rfl, rfl⟩
    obtain ⟨a1, a2⟩ := At.append.1 a
    refine ⟨(), _, _, _, hA.2 ⟨l.map (·.1), by simpa using hn, ?_, by simpa only [List.flatMap_map] using a1, rfl, rfl, rfl⟩, ?_⟩
    · intro x hx
      obtain ⟨c, hc, rfl⟩ := List.mem_map.1 hx
      exact (o c hc).1
    rw [fA]
    refine (hB (by simp [hn]) (by simpa only [List.flatMap_map] using a1.len)).2 ⟨l.map (·.2), by simpa using hn, ?_, by simpa only [List.flatMap_map] using a2,
      by simp [List.flatMap_map, Nat.add_assoc], rfl, ?_⟩
    · intro x hx
      obtain ⟨c, hc, rfl⟩ := List.mem_map.1 hx
      exact (o c hc).2
    · rw [fB _ ((l.map (·.1)).map fun x => (x, 0)) _ rfl (by simp)]
      simp [List.zipWith_map, List.zipWith_self]

theorem classes_runs {n : Nat} {u : Unit} (hi : i ≤ D.length) (he : e.classNames = [])
    (hk : e.builder.kernClasses = []) :
    (Ed.bind (loop n 0 className) fun _ => loop n 0 classValue).Runs D i d e u i' d' e' ↔
    ∃ l : List (Bytes × Int), l.length = n ∧ (∀ c ∈ l, SpacedName c.1 ∧ -128 ≤ c.2 ∧ c.2 ≤ 127) ∧
      At D i (l.flatMap (fun c => shortStr c.1) ++ l.flatMap fun c => leBytes 1 (c.2 % 256).toNat) ∧
      i' = i + (l.flatMap (fun c => shortStr c.1) ++ l.flatMap fun c => leBytes 1 (c.2 % 256).toNat).length ∧
      d' = d ∧
      e' = { e with classNames := l.map (·.1), builder := { e.builder with kernClasses := l.map (·.2) } } := by
  refine (Runs.bind (p := loop n 0 className)).trans ?_
  have hA : ∀ {j dj ej} {u : Unit}, (loop n 0 className).Runs D i d e u j dj ej ↔ _ := fun {j dj ej u} =>
    loop_runs (N := n) (P := fun _ => True) (fun _ _ _ _ _ _ _ _ _ _ => className_runs)
      (fun _ _ _ _ _ _ => trivial) (Nat.le_refl _) trivial hi
  have hB : ∀ {i d i' d' e'} {u : Unit} {e : Editor}, e.builder.kernClasses.length = n → i ≤ D.length →
      ((loop n 0 classValue).Runs D i d e u i' d' e' ↔ _) := fun {i d i' d' e' u e} he hi =>
    loop_runs (N := n) (P := fun e => e.builder.kernClasses.length = n)
      (fun _ _ _ _ _ _ _ _ h hP => classValue_runs (by omega))
      (fun _ _ _ _ hP _ => by simpa using hP) (Nat.le_refl _) he hi
  have fA : ∀ (l : List Bytes) (k : Nat) (e : Editor), (l.foldl (fun (s : Nat × Editor) x => (s.1 + 1,
      { s.2 with classNames := s.2.classNames ++ [x],
                 builder := { s.2.builder with kernClasses := s.2.builder.kernClasses ++ [0] } })) (k, e)).2 =
      { e with classNames := e.classNames ++ l, builder :=
        { e.builder with kernClasses := e.builder.kernClasses ++ l.map fun _ => 0 } } := by
    intro l
    induction l with
    | nil => intro k e; simp
    | cons x l ih => intro k e; rw [List.foldl_cons, ih]; simp
  have fB := fun l rest e h => fold_modify (get := fun e => e.builder.kernClasses)
    (put := fun l e => { e with builder := { e.builder with kernClasses := l } })
    (g := fun (x : Int) _ => x) (fun _ _ => rfl) (fun _ _ _ => rfl) (fun _ => rfl) l [] rest 0 e h rfl
  simp only [List.nil_append] at fB
  constructor
  · rintro ⟨_, j, dj, ej, h1, h2⟩
    obtain ⟨l1, n1, o1, a1, rfl, rfl, rfl⟩ := hA.1 h1
    rw [fA] at h2
    obtain ⟨l2, n2, o2, a2, rfl, rfl, rfl⟩ := (hB (by simp [n1, hk]) a1.len).1 h2
    rw [fB _ (l1.map fun _ => 0) _ (by simp [hk]) (by simp; omega)]
    obtain ⟨l, rfl, rfl, hl⟩ := zip_parts (n1.trans n2.symm)
    simp only [List.flatMap_map] at a1 a2 ⊢
    refine ⟨l, by simpa using n1, fun c hc => ⟨o1 _ (List.mem_map_of_mem hc), o2 _ (List.mem_map_of_mem hc)⟩,
      At.append.2 ⟨a1, a2⟩, by simp; omega, by trivial, ?_⟩
    simp [List.zipWith_map, List.zipWith_self, he]
  · rintro ⟨l, hn, o, a, rfl, rfl, rfl⟩
    obtain ⟨a1, a2⟩ := At.append.1 a
    refine ⟨(), _, _, _, hA.2 ⟨l.map (·.1), by simpa using hn, ?_, by simpa only [List.flatMap_map] using a1,
      rfl, rfl, rfl⟩, ?_⟩
    · intro x hx
      obtain ⟨c, hc, rfl⟩ := List.mem_map.1 hx
      exact (o c hc).1
    rw [fA]
    refine (hB (by simp [hn, hk]) (by simpa only [List.flatMap_map] using a1.len)).2 ⟨l.map (·.2),
      by simpa using hn, ?_, by simpa only [List.flatMap_map] using a2,
      by simp [List.flatMap_map, Nat.add_assoc], rfl, ?_⟩
    · intro x hx
      obtain ⟨c, hc, rfl⟩ := List.mem_map.1 hx
      exact (o c hc).2
    · rw [fB _ ((l.map (·.1)).map fun _ => 0) _ (by simp [hk]) (by simp)]
      simp [List.zipWith_map, List.zipWith_self, he]

theorem horz_runs {n : Nat} {u : Unit} (hi : i ≤ D.length) :
    (loop n 0 (kernPair onHorz)).Runs D i d e u i' d' e' ↔
    ∃ l : List PairClass, l.length = n ∧ (∀ p ∈ l, p.Valid e.builder.glyphOrder.length) ∧
      At D i (l.flatMap PairClass.bytes) ∧ i' = i + (l.flatMap PairClass.bytes).length ∧ d' = d ∧
      e' = { e with builder := onHorz (fun pairs => l.foldl (classStep' e.builder.glyphOrder) pairs) e.builder } := by
  refine (loop_runs (N := n) (ok := PairClass.Valid e.builder.glyphOrder.length) (enc := PairClass.bytes)
    (P := fun e' => e'.builder.glyphOrder.length = e.builder.glyphOrder.length)
    (step := fun _ e x =>
      { e with builder := onHorz (fun pairs => classStep' e.builder.glyphOrder pairs x) e.builder })
    (fun _ _ _ _ _ _ _ _ _ h => by rw [← h]; exact kernPair_runs)
    (fun _ _ _ _ h _ => h) (Nat.le_refl _) rfl hi).trans ?_
  simp only [fold_horz]

theorem vert_runs {n : Nat} {u : Unit} (hi : i ≤ D.length) :
    (loop n 0 (kernPair onVert)).Runs D i d e u i' d' e' ↔
    ∃ l : List PairClass, l.length = n ∧ (∀ p ∈ l, p.Valid e.builder.glyphOrder.length) ∧
      At D i (l.flatMap PairClass.bytes) ∧ i' = i + (l.flatMap PairClass.bytes).length ∧ d' = d ∧
      e' = { e with builder := onVert (fun pairs => l.foldl (classStep' e.builder.glyphOrder) pairs) e.builder } := by
  refine (loop_runs (N := n) (ok := PairClass.Valid e.builder.glyphOrder.length) (enc := PairClass.bytes)
    (P := fun e' => e'.builder.glyphOrder.length = e.builder.glyphOrder.length)
    (step := fun _ e x =>
      { e with builder := onVert (fun pairs => classStep' e.builder.glyphOrder pairs x) e.builder })
    (fun _ _ _ _ _ _ _ _ _ h => by rw [← h]; exact kernPair_runs)
    (fun _ _ _ _ h _ => h) (Nat.le_refl _) rfl hi).trans ?_
  simp only [fold_vert]

theorem conditions_runs {n : Nat} {u : Unit} (hi : i ≤ D.length) (he : e.conditionNames.length = n) :
    (loop n 0 conditionName).Runs D i d e u i' d' e' ↔
    ∃ l : List Bytes, l.length = n ∧ (∀ x ∈ l, SpacedName x) ∧ At D i (l.flatMap shortStr) ∧
      i' = i + (l.flatMap shortStr).length ∧ d' = d ∧ e' = { e with conditionNames := l } := by
  have fB : ∀ (l pre rest : List Bytes) (k : Nat) (e : Editor), e.conditionNames = pre ++ rest → pre.length = k →
      rest.length = l.length → (l.foldl (fun (s : Nat × Editor) x => (s.1 + 1,
        { s.2 with conditionNames := s.2.conditionNames.set s.1 x })) (k, e)).2 =
        { e with conditionNames := pre ++ l } := by
    intro l
    induction l with
    | nil =>
      intro pre rest k e h _ hl
      obtain rfl := List.eq_nil_of_length_eq_zero hl
      simp [← h]
    | cons x l ih =>
      intro pre rest k e h hk hl
      match rest, hl with
      | c :: rest, hl =>
        rw [List.foldl_cons, ih (pre ++ [x]) rest (k + 1) _ (by simp [h, ← hk]) (by simp [hk]) (by simpa using hl)]
        simp
  refine (loop_runs (N := n) (P := fun e => e.conditionNames.length = n)
    (fun _ _ _ _ _ _ _ _ h hP => conditionName_runs (by omega))
    (fun _ _ _ _ hP _ => by simpa using hP) (Nat.le_refl _) he hi).trans ?_
  constructor
  · rintro ⟨l, h1, h2, h3, h4, h5, h6⟩
    refine ⟨l, h1, h2, h3, h4, h5, ?_⟩
    rw [h6, fB l [] e.conditionNames 0 e rfl rfl (he.trans h1.symm), List.nil_append]
  · rintro ⟨l, h1, h2, h3, h4, h5, h6⟩
    refine ⟨l, h1, h2, h3, h4, h5, ?_⟩
    rw [h6, fB l [] e.conditionNames 0 e rfl rfl (he.trans h1.symm), List.nil_append]

/-- What the contents do to a builder without edition data. -/
def applied (x : EditionData) (e : Editor) : Editor :=
  { builder := { e.builder with
      kernClasses := x.classes.map (·.2),
      horzKern := x.horz.foldl (classStep' e.builder.glyphOrder) e.builder.horzKern,
      vertKern := x.vert.foldl (classStep' e.builder.glyphOrder) e.builder.vertKern }
    categories := x.categories, classNames := x.classes.map (·.1), conditionNames := x.conditions }

end EditionModel
