import Verif.Model.Edition
import Verif.Lemmas.Accessors

/-! # What parsing edition data leaves -/

namespace ParseBuf.Prog
open Go

/-- Every result that can be returned has the property. -/
def All {α : Type} (P : α → Prop) : Prog α → Prop
  | ret a => P a
  | fail _ => True
  | panic _ => True
  | take _ h k => (∀ m, (h m).All P) ∧ ∀ b, (k b).All P
  | index k => ∀ i, (k i).All P
  | sync k => (k ()).All P
  | query _ k => ∀ b, (k b).All P

theorem All.exec {α : Type} {P : α → Prop} {junk : Nat → UInt8} : ∀ {p : Prog α} {s s' : PBuf} {a : α},
    p.All P → p.exec junk s = .ok (a, s') → P a
  | ret _, s, s', a, h, he => by
    simp only [Prog.exec, Res.ok.injEq, Prod.mk.injEq] at he
    rw [← he.1]; exact h
  | fail _, _, _, _, _, he => by cases he
  | panic _, _, _, _, _, he => by cases he
  | take n hd k, s, s', a, h, he => by
    simp only [Prog.exec] at he
    split at he
    · exact All.exec (h.2 _) he
    · exact All.exec (h.1 _) he
    · cases he
    · cases he
  | index k, s, s', a, h, he => All.exec (h _) he
  | sync k, s, s', a, h, he => All.exec (p := k ()) h he
  | query v k, s, s', a, h, he => by
    simp only [Prog.exec] at he
    split at he
    · exact All.exec (h _) he
    · cases he
    · cases he

theorem All.bind {α β : Type} {P : α → Prop} {Q : β → Prop} {f : α → Prog β} (hf : ∀ a, P a → (f a).All Q) :
    ∀ {p : Prog α}, p.All P → (p.bind f).All Q
  | ret a, h => hf a h
  | fail _, _ => trivial
  | panic _, _ => trivial
  | take _ _ _, h => ⟨fun m => All.bind hf (h.1 m), fun b => All.bind hf (h.2 b)⟩
  | index _, h => fun i => All.bind hf (h i)
  | sync k, h => All.bind (p := k ()) hf h
  | query _ _, h => fun b => All.bind hf (h b)

theorem All.any {α : Type} : ∀ (p : Prog α), p.All fun _ => True
  | ret _ => trivial
  | fail _ => trivial
  | panic _ => trivial
  | take _ h k => ⟨fun m => All.any (h m), fun b => All.any (k b)⟩
  | index k => fun i => All.any (k i)
  | sync k => All.any (k ())
  | query _ k => fun b => All.any (k b)

theorem All.attempt {α : Type} {P : α → Prop} : ∀ {p : Prog α}, p.All P →
    p.attempt.All fun r => ∀ a, r = .ok a → P a
  | ret a, h => fun _ e => by cases e; exact h
  | fail _, _ => fun _ e => by cases e
  | panic _, _ => trivial
  | take _ _ _, h => ⟨fun m => All.attempt (h.1 m), fun b => All.attempt (h.2 b)⟩
  | index _, h => fun i => All.attempt (h i)
  | sync k, h => All.attempt (p := k ()) h
  | query _ _, h => fun b => All.attempt (h b)

end ParseBuf.Prog

namespace EditionModel
open Go ParseBuf ParseBuf.Prog BuilderModel

/-- A part of the method keeps a property of the builder, also when it fails; values have a property. -/
def Ed.Keeps {α : Type} (I : Editor → Prop) (P : α → Prop) (p : Ed α) : Prop :=
  ∀ e, I e → (p e).All fun r => I r.2 ∧ ∀ a, r.1 = .ok a → P a

namespace Ed
variable {α β : Type} {I : Editor → Prop} {P : α → Prop} {Q : β → Prop}

theorem Keeps.bind {p : Ed α} {f : α → Ed β} (hp : p.Keeps I P) (hf : ∀ a, P a → (f a).Keeps I Q) :
    Keeps I Q (p >>= f) := by
  intro e he
  refine All.bind ?_ (hp e he)
  rintro ⟨r, e'⟩ ⟨h1, h2⟩
  cases r with
  | ok a => exact hf a (h2 a rfl) e' h1
  | error m => exact ⟨h1, fun _ h => by cases h⟩

theorem Keeps.pure {a : α} (h : P a) : Keeps I P (pure a) := fun _ he =>
  ⟨he, fun _ e => by cases e; exact h⟩

theorem Keeps.error (m : String) : Keeps I P (Ed.error m) := fun _ he => ⟨he, fun _ e => by cases e⟩

theorem Keeps.panic (m : String) : Keeps I P (Ed.panic m) := fun _ _ => trivial

theorem Keeps.lift {p : Prog α} (h : p.All P) : Keeps I P (Ed.lift p) := fun e he => by
  refine All.bind (P := fun r => ∀ a, r = .ok a → P a) (fun r hr => ?_) (All.attempt h)
  exact ⟨he, fun a ha => hr a ha⟩

theorem Keeps.lift' (p : Prog α) : Keeps I (fun _ => True) (Ed.lift p) := Keeps.lift (All.any p)

theorem Keeps.get : Keeps I I Ed.get := fun _ he => ⟨he, fun _ e => by cases e; exact he⟩

theorem Keeps.modify {f : Editor → Editor} (h : ∀ e, I e → I (f e)) :
    Keeps I (fun _ => True) (Ed.modify f) := fun e he => ⟨h e he, fun _ _ => trivial⟩

theorem Keeps.ofRes (x : Res α) : Keeps I (fun a => x = .ok a) (Ed.ofRes x) := by
  cases x with
  | ok a => exact Keeps.pure rfl
  | err m => exact Keeps.error m
  | panic m => exact Keeps.panic m

theorem Keeps.ite {c : Prop} [Decidable c] {p q : Ed α} (hp : c → p.Keeps I P) (hq : ¬ c → q.Keeps I P) :
    Keeps I P (if c then p else q) := by
  split
  · exact hp ‹_›
  · exact hq ‹_›

theorem Keeps.loop {f : Nat → Ed Unit} (hf : ∀ i, (f i).Keeps I fun _ => True) :
    ∀ n i, (loop n i f).Keeps I fun _ => True
  | 0, _ => Keeps.pure trivial
  | n + 1, i => Keeps.bind (hf i) fun _ _ => Keeps.loop hf n (i + 1)

end Ed

open Ed

/-- The numbers that `ReadInt8` returns. -/
theorem readInt8_all : readInt8.All fun v => -128 ≤ v ∧ v ≤ 127 := by
  refine ⟨fun _ => trivial, fun b => ?_⟩
  refine All.bind (p := Prog.ofRes (FontModel.rd8 b 0)) (P := fun v => v < 256) (fun v hv => ?_) ?_
  · show -128 ≤ FontModel.Font.int8 v ∧ FontModel.Font.int8 v ≤ 127
    rw [FontModel.Font.int8]
    split <;> omega
  · rw [FontModel.rd8]
    cases h : idx b 0 with
    | ok a => exact a.toNat_lt
    | err m => trivial
    | panic m => trivial

theorem classStep {I : Editor → Prop} {e : Editor} (he : I e) {x y : Res Nat} {f : Nat → Nat → Editor → Editor}
    (h : ∀ u v, x = .ok u → y = .ok v → I (f u v e)) :
    ((do let u ← Ed.ofRes x; let v ← Ed.ofRes y; Ed.modify (f u v) : Ed Unit) e).All
      fun r => I r.2 ∧ ∀ a, r.1 = .ok a → True := by
  cases x with
  | err m => exact ⟨he, fun _ _ => trivial⟩
  | panic m => trivial
  | ok u =>
    cases y with
    | err m => exact ⟨he, fun _ _ => trivial⟩
    | panic m => trivial
    | ok v => exact ⟨h u v rfl rfl, fun _ _ => trivial⟩

/-- What every step of the method keeps, given what the changes of the builder keep. -/
theorem editionBody_keeps {I : Editor → Prop}
    (hcat : ∀ e c, I e → I { e with categories := c })
    (hname : ∀ e n, I e → I { e with classNames := n })
    (hcond : ∀ e i n, I e → I { e with conditionNames := e.conditionNames.set i n })
    (hclass : ∀ e, I e → I { e with builder := { e.builder with kernClasses := e.builder.kernClasses ++ [0] } })
    (hvalue : ∀ e i v, I e → -128 ≤ v → v ≤ 127 → I { e with builder :=
      { e.builder with kernClasses := e.builder.kernClasses.modify i fun _ => v } })
    (hhorz : ∀ e u v cls, I e → u ∈ e.builder.glyphOrder → v ∈ e.builder.glyphOrder →
      I { e with builder := onHorz (fun pairs => setClass pairs (u, v) cls) e.builder })
    (hvert : ∀ e u v cls, I e → u ∈ e.builder.glyphOrder → v ∈ e.builder.glyphOrder →
      I { e with builder := onVert (fun pairs => setClass pairs (u, v) cls) e.builder }) :
    editionBody.Keeps I fun _ => True := by
  have hread : readName.Keeps I fun _ => True :=
    Keeps.bind (Keeps.lift' _) fun _ _ => Keeps.bind (Keeps.ofRes _) fun _ _ => Keeps.pure trivial
  have hpair : ∀ {update : (GoMap (Nat × Nat) KernPair → GoMap (Nat × Nat) KernPair) → Builder → Builder},
      (∀ e u v cls, I e → u ∈ e.builder.glyphOrder → v ∈ e.builder.glyphOrder →
        I { e with builder := update (fun pairs => setClass pairs (u, v) cls) e.builder }) →
      ∀ i, (kernPair update i).Keeps I fun _ => True := by
    intro update hu i
    refine Keeps.bind (Keeps.lift' _) fun first _ => Keeps.bind (Keeps.lift' _) fun second _ =>
      Keeps.bind (Keeps.lift' _) fun cls _ => Keeps.ite (fun _ => Keeps.error _) fun _ => ?_
    -- the order of the glyphs is that of the builder at this moment
    intro e he
    refine All.bind (P := fun r => r.2 = e ∧ ∀ a, r.1 = .ok a → a = e) ?_ ?_
    · rintro ⟨r, e'⟩ ⟨rfl, h2⟩
      cases r with
      | error m => exact ⟨he, fun _ h => by cases h⟩
      | ok a =>
        obtain rfl := h2 a rfl
        exact classStep he (fun u v h1 h2 => hu _ _ _ _ he (List.mem_of_getElem? (idx_eq_ok.1 h1))
          (List.mem_of_getElem? (idx_eq_ok.1 h2)))
    · exact ⟨rfl, fun _ h => by cases h; rfl⟩
  unfold editionBody
  refine Keeps.bind (Keeps.lift' _) fun id _ => Keeps.bind Keeps.get fun e _ =>
    Keeps.ite (fun _ => Keeps.error _) fun _ => Keeps.bind (Keeps.lift' _) fun n _ =>
    Keeps.bind (Keeps.loop (fun i => ?_) _ _) fun _ _ => Keeps.bind (Keeps.loop (fun i => ?_) _ _) fun _ _ =>
    Keeps.bind (Keeps.lift' _) fun _ _ =>
    Keeps.bind (Keeps.loop (fun i => ?_) _ _) fun _ _ => Keeps.bind (Keeps.loop (fun i => ?_) _ _) fun _ _ =>
    Keeps.bind (Keeps.lift' _) fun _ _ => Keeps.bind (Keeps.loop (hpair hhorz) _ _) fun _ _ =>
    Keeps.bind (Keeps.lift' _) fun _ _ => Keeps.bind (Keeps.loop (hpair hvert) _ _) fun _ _ =>
    Keeps.bind (Keeps.lift' _) fun _ _ => Keeps.ite (fun _ => Keeps.error _) fun _ =>
    Keeps.bind Keeps.get fun _ _ => Keeps.ite (fun _ => Keeps.ite (fun _ => Keeps.panic _) fun _ => Keeps.error _)
      fun _ => Keeps.loop (fun i => ?_) _ _
  · exact Keeps.bind hread fun name _ => Keeps.modify fun e he => hcat e _ he
  · exact Keeps.bind (Keeps.lift' _) fun _ _ => Keeps.bind Keeps.get fun _ _ =>
      Keeps.ite (fun _ => Keeps.panic _) fun _ => Keeps.modify fun e he => hcat e _ he
  · exact Keeps.bind hread fun name _ => Keeps.modify fun e he => hname _ _ (hclass e he)
  · exact Keeps.bind (Keeps.lift readInt8_all) fun v hv => Keeps.bind Keeps.get fun _ _ =>
      Keeps.ite (fun _ => Keeps.panic _) fun _ => Keeps.modify fun e he => hvalue e i v he hv.1 hv.2
  · exact Keeps.bind hread fun name _ => Keeps.bind Keeps.get fun _ _ =>
      Keeps.ite (fun _ => Keeps.panic _) fun _ => Keeps.modify fun e he => hcond e _ _ he

/-- The whole method keeps what clearing and the steps keep. -/
theorem parseEditionData_keeps {I : Editor → Prop} (hclear : ∀ e, I e → I (clearEditionData e))
    (hbody : editionBody.Keeps I fun _ => True) {junk : Nat → UInt8} {sig : Ev} {gz : Res Reader}
    {e e' : Editor} {err : Option String} (he : I e)
    (h : parseEditionData junk sig gz e = .ok (err, e')) : I e' := by
  have hc := hclear _ he
  have hcc := hclear _ hc
  unfold parseEditionData at h
  simp only at h
  split at h
  · simp only [Res.ok.injEq, Prod.mk.injEq] at h; rw [← h.2]; exact hcc
  split at h
  · simp only [Res.ok.injEq, Prod.mk.injEq] at h; rw [← h.2]; exact hcc
  split at h
  · simp only [Res.ok.injEq, Prod.mk.injEq] at h; rw [← h.2]; exact hcc
  · cases h
  · rename_i r
    rw [parseEditionStream, Res.bind_eq_ok] at h
    obtain ⟨⟨⟨x, e1⟩, s⟩, h1, h⟩ := h
    have hI := (All.exec (hbody _ hc) h1).1
    simp only at h hI
    split at h
    · simp only [Res.pure_eq, Res.ok.injEq, Prod.mk.injEq] at h; rw [← h.2]; exact hclear _ hI
    · rw [Res.bind_eq_ok] at h
      obtain ⟨⟨eof, _⟩, _, h⟩ := h
      simp only at h
      split at h
      · simp only [Res.pure_eq, Res.ok.injEq, Prod.mk.injEq] at h; rw [← h.2]; exact hclear _ hI
      · simp only [Res.pure_eq, Res.ok.injEq, Prod.mk.injEq] at h; rw [← h.2]; exact hI

end EditionModel
