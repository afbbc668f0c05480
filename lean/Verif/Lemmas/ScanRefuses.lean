import Verif.Lemmas.Scanner

/-!
# Rules with elements that the scanner refuses
-/

namespace ScannerModel
open Go Helpers Spec

/-- The kind that takes every element, with another mark for sets. -/
def Kind.lax (k : Kind) (m : Nat) : Kind := { k with valid := fun _ => true, none := m }

private theorem ite_err' {α : Type} {c : Prop} [Decidable c] {m : String} {x : Res α} {y : α} :
    (if c then Res.err m else x) = .ok y ↔ ¬ c ∧ x = .ok y := by
  split <;> simp [*]

theorem next_lax {k : Kind} {m : Nat} {s s' : Scanner} {e g : Nat} (h : next (k.lax m) s = .ok (s', e, g)) :
    (e = m ∧ next k s = .ok (s', k.none, g)) ∨ (k.valid e = true ∧ next k s = .ok (s', e, g)) ∨
    (k.valid e = false ∧ next k s = .err invalidRule) := by
  unfold next at h ⊢
  split at h
  · rename_i h0
    rw [if_pos h0]
    simp only [ite_err', Res.bind_eq_ok] at h
    obtain ⟨h1, g', h2, s1, h3, h4⟩ := h
    cases h4
    left
    refine ⟨rfl, ?_⟩
    simp only
    rw [if_neg h1, h2, Res.ok_bind]
    rw [h3]
    rfl
  · rename_i h0
    rw [if_neg h0]
    split at h
    · rename_i h5
      rw [if_pos h5]
      simp only [ite_err', Res.bind_eq_ok] at h
      obtain ⟨h1, rest, h2, e', h3, h6, s1, h7, h4⟩ := h
      cases h4
      right
      have h1' : ¬ s.dataIndex + (k.width - 1) ≥ s.rule.length := h1
      have h3' : k.decode rest = .ok e := h3
      simp only
      rw [if_neg h1', h2, Res.ok_bind]
      rw [h3', Res.ok_bind]
      cases hv : k.valid e with
      | true =>
        left
        refine ⟨rfl, ?_⟩
        have h7' : afterElem { s with remElems := s.remElems - 1, dataIndex := u16 (s.dataIndex + k.width) } = .ok s' := h7
        simp [h7']
      | false => right; exact ⟨rfl, rfl⟩
    · split at h <;> cases h

/-- Scanning agrees up to the first element that is refused. -/
theorem scan_lax {k : Kind} {m : Nat} : ∀ {fuel : Nat} {s : Scanner} {es : List (Nat × Nat × Nat)},
    scan (k.lax m) fuel s = .ok es → ∀ x ∈ es, x.2.1 ≠ m → k.valid x.2.1 = false →
    scan k fuel s = .err invalidRule
  | 0, s, es, h, x, hx, _, _ => by
    rw [scan] at h
    split at h <;> cases h
    cases hx
  | fuel + 1, s, es, h, x, hx, hm, hv => by
    rw [scan] at h ⊢
    split at h
    · rename_i hn
      rw [if_pos hn]
      simp only [Res.bind_eq_ok] at h
      obtain ⟨⟨s1, e, g⟩, h1, rest, h2, h3⟩ := h
      cases h3
      have key : x ∈ rest → scan k fuel s1 = .err invalidRule := fun hr => scan_lax h2 x hr hm hv
      rcases next_lax h1 with ⟨he, h4⟩ | ⟨he, h4⟩ | ⟨_, h4⟩
      · rw [h4, Res.ok_bind]
        simp only
        rcases List.mem_cons.1 hx with rfl | hx
        · exact absurd he hm
        · rw [key hx]; rfl
      · rw [h4, Res.ok_bind]
        simp only
        rcases List.mem_cons.1 hx with rfl | hx
        · rw [he] at hv; cases hv
        · rw [key hx]; rfl
      · rw [h4]; rfl
    · cases h
      cases hx

theorem scanRule_lax {k : Kind} {m : Nat} {rule : Bytes} {es : List (Nat × Nat × Nat)}
    (h : scanRule (k.lax m) rule = .ok es) {x : Nat × Nat × Nat} (hx : x ∈ es) (hm : x.2.1 ≠ m)
    (hv : k.valid x.2.1 = false) : scanRule k rule = .err invalidRule := by
  rw [scanRule, Res.bind_eq_ok] at h
  obtain ⟨s, h1, h2⟩ := h
  have h1' : start k rule = .ok s := h1
  rw [scanRule, h1', Res.ok_bind]
  exact scan_lax h2 x hx hm hv

/-- A well formed rule with an element that is not valid is refused. -/
theorem scanRule_refuses {k : Kind} {word : Nat → Bytes} {ok : Nat → Prop} (hw : 0 < k.width)
    (hlen : ∀ v, (word v).length = k.width) (hdec : ∀ v x, ok v → k.decode (word v ++ x) = .ok v)
    (hmin : k.minLen ≤ 9 + k.width) (hw4 : k.width ≤ 4) {r : RuleCode} (h : r.Ok ok) {b x : Nat}
    (hx : (b, InElem.one x) ∈ r.elems) (hv : k.valid x = false) :
    scanRule k (r.bytes word) = .err invalidRule := by
  have hc : Coded (k.lax (x + 1)) word ok := ⟨hw, hlen, hdec, fun _ _ => rfl⟩
  have h1 := scanRule_ok hc hmin hw4 r h
  exact scanRule_lax h1 (x := pair (k.lax (x + 1)) (b, .one x)) (List.mem_map.2 ⟨_, hx, rfl⟩)
    (Nat.ne_of_lt (Nat.lt_succ_self x)) hv

theorem glyph_dec (v : Nat) (x : Bytes) (hv : v < 65536) : glyphKind.decode (word16 v ++ x) = .ok v := by
  show decodeUint16LE (UInt8.ofNat v :: UInt8.ofNat (v / 256) :: x) = _
  rw [decodeUint16LE_cons]
  simp
  omega

theorem utf8_dec (v : Nat) (x : Bytes) (hv : v < 4294967296) : utf8Kind.decode (word32 v ++ x) = .ok v := by
  show decodeUint32LE (UInt8.ofNat v :: UInt8.ofNat (v / 256) :: UInt8.ofNat (v / 65536) ::
    UInt8.ofNat (v / 16777216) :: x) = _
  rw [decodeUint32LE_cons]
  simp
  omega

theorem glyph_refuses {r : RuleCode} (h : r.Ok (· < 65536)) {b x : Nat} (hx : (b, InElem.one x) ∈ r.elems)
    (hv : 56789 ≤ x) : scanRule glyphKind (r.bytes word16) = .err invalidRule :=
  scanRule_refuses (by decide) (fun _ => rfl) glyph_dec (by decide) (by decide) h hx (by simpa [glyphKind] using hv)

theorem utf8_refuses {r : RuleCode} (h : r.Ok (· < 4294967296)) {b : Nat} (hx : (b, InElem.one 65533) ∈ r.elems) :
    scanRule utf8Kind (r.bytes word32) = .err invalidRule :=
  scanRule_refuses (by decide) (fun _ => rfl) utf8_dec (by decide) (by decide) h hx (by decide)

end ScannerModel
