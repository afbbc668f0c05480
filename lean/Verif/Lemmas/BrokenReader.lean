import Verif.Spec.Reader
import Verif.Model.Parse
import Verif.Model.Edition

/-!
# Readers that never report the end of the file
-/

namespace ParseBuf
open Go

/-- The buffer has seen no end of the file and will see none. -/
structure Endless (s : PBuf) : Prop where
  eof : s.eof = false
  reader : s.reader.Broken

theorem readMoreLoop_endless (junk : Nat → UInt8) : ∀ (n : Nat) (s : PBuf), Endless s → ∀ e s',
    readMoreLoop junk n s = .ok (e, s') → Endless s'
  | 0, s, hs, e, s', h => by
    cases h
    exact hs
  | n + 1, s, hs, e, s', h => by
    have hr : s.reader.read.2.Broken ∧ s.reader.read.1.status ≠ .eof := by
      unfold Reader.read
      split
      · exact ⟨hs.reader, hs.reader.fin⟩
      · rename_i x xs he
        exact ⟨⟨hs.reader.fin, fun y hy => hs.reader.evs y (he ▸ List.mem_cons_of_mem _ hy)⟩,
          hs.reader.evs x (he ▸ List.mem_cons_self)⟩
    simp only [readMoreLoop] at h
    split at h
    · cases h
    · split at h
      · cases h
        exact ⟨hs.eof, hr.1⟩
      · split at h
        · rename_i hst
          exact absurd hst hr.2
        · cases h
          exact ⟨hs.eof, hr.1⟩
        · split at h
          · cases h
            exact ⟨hs.eof, hr.1⟩
          · refine readMoreLoop_endless junk n _ ?_ e s' h
            exact ⟨hs.eof, hr.1⟩

theorem readUpToLoop_endless (junk : Nat → UInt8) (newIndex : Nat) : ∀ (fuel : Nat) (s : PBuf), Endless s →
    ∀ e s', readUpToLoop junk newIndex fuel s = .ok (e, s') → Endless s'
  | 0, _, _, _, _, h => by cases h
  | fuel + 1, s, hs, e, s', h => by
    simp only [readUpToLoop] at h
    split at h
    · rw [if_neg (by rw [hs.eof]; decide)] at h
      cases hm : readMore junk s with
      | err m => rw [hm] at h; cases h
      | panic m => rw [hm] at h; cases h
      | ok q =>
        obtain ⟨e', s₁⟩ := q
        have h1 := readMoreLoop_endless junk 3 s hs e' s₁ hm
        rw [hm] at h
        cases e' with
        | some m => cases h; exact h1
        | none => exact readUpToLoop_endless junk newIndex fuel s₁ h1 e s' h
    · cases h
      exact ⟨hs.eof, hs.reader⟩

theorem exec_endless {α : Type} (junk : Nat → UInt8) : ∀ (p : Prog α) (s : PBuf), Endless s → ∀ a s',
    p.exec junk s = .ok (a, s') → Endless s'
  | .ret _, s, hs, a, s', h => by cases h; exact hs
  | .fail _, _, _, _, _, h => by cases h
  | .panic _, _, _, _, _, h => by cases h
  | .take n f k, s, hs, a, s', h => by
    simp only [Prog.exec] at h
    cases hm : readUpTo junk (s.index + n) s with
    | err m => rw [hm] at h; cases h
    | panic m => rw [hm] at h; cases h
    | ok q =>
      obtain ⟨e, s₁⟩ := q
      have h1 : Endless s₁ := by
        unfold readUpTo at hm
        split at hm
        · cases hm
        · exact readUpToLoop_endless junk _ _ s hs e s₁ hm
      rw [hm] at h
      cases e with
      | some m => exact exec_endless junk (f m) s₁ h1 a s' h
      | none => exact exec_endless junk (k _) s₁ h1 a s' h
  | .index k, s, hs, a, s', h => exec_endless junk (k _) s hs a s' h
  | .sync k, s, hs, a, s', h => by
    refine exec_endless junk (k ()) _ ?_ a s' h
    exact ⟨hs.eof, hs.reader⟩
  | .query v k, s, hs, a, s', h => by
    simp only [Prog.exec] at h
    split at h
    · exact exec_endless junk (k _) s hs a s' h
    · cases h
    · cases h

theorem ensureEOF_endless (junk : Nat → UInt8) {s s' : PBuf} (hs : Endless s) :
    ensureEOF junk s ≠ .ok (none, s') := by
  intro h
  unfold ensureEOF at h
  rw [if_neg (by rw [hs.eof]; decide)] at h
  cases hm : readMore junk s with
  | err m => rw [hm] at h; cases h
  | panic m => rw [hm] at h; cases h
  | ok q =>
    obtain ⟨e, s₁⟩ := q
    have h1 := readMoreLoop_endless junk 3 s hs e s₁ hm
    rw [hm] at h
    simp only [Res.ok_bind] at h
    cases e with
    | some m => cases h
    | none =>
      simp only [h1.eof] at h
      split at h <;> cases h

theorem parseStream_endless (junk : Nat → UInt8) {r : Reader} (hr : r.Broken) (f : FontModel.Font) :
    ParseModel.parseStream junk r ≠ .ok f := by
  intro h
  unfold ParseModel.parseStream at h
  cases hm : ParseModel.parseBody.exec junk (PBuf.init r) with
  | err m => rw [hm] at h; cases h
  | panic m => rw [hm] at h; cases h
  | ok q =>
    obtain ⟨f', s⟩ := q
    have h1 := exec_endless junk _ _ ⟨rfl, hr⟩ _ _ hm
    rw [hm] at h
    simp only [Res.ok_bind] at h
    cases he : ensureEOF junk s with
    | err m => rw [he] at h; cases h
    | panic m => rw [he] at h; cases h
    | ok q =>
      obtain ⟨e, s'⟩ := q
      cases e with
      | none => exact ensureEOF_endless junk h1 he
      | some m => rw [he] at h; cases h

theorem editionStream_endless (junk : Nat → UInt8) {r : Reader} (hr : r.Broken) (e e' : EditionModel.Editor) :
    EditionModel.parseEditionStream junk r e ≠ .ok (none, e') := by
  intro h
  unfold EditionModel.parseEditionStream at h
  cases hm : (EditionModel.editionBody e).exec junk (PBuf.init r) with
  | err m => rw [hm] at h; cases h
  | panic m => rw [hm] at h; cases h
  | ok q =>
    obtain ⟨⟨x, e₁⟩, s⟩ := q
    have h1 := exec_endless junk _ _ ⟨rfl, hr⟩ _ _ hm
    rw [hm] at h
    simp only [Res.ok_bind] at h
    cases x with
    | error m => cases h
    | ok u =>
      simp only at h
      cases he : ensureEOF junk s with
      | err m => rw [he] at h; cases h
      | panic m => rw [he] at h; cases h
      | ok q =>
        obtain ⟨e, s'⟩ := q
        cases e with
        | none => exact ensureEOF_endless junk h1 he
        | some m => rw [he] at h; cases h

end ParseBuf
