import Verif.Lemmas.TesterNeeds
import Verif.Lemmas.InsideApart
import Verif.Lemmas.EmptySet

/-!
# Testers whose rules cannot be compiled
-/

namespace TesterModel
open Go ScannerModel TreeModel FontModel CacheModel Spec Tester

section
variable {v : Variant} {word : Nat → Bytes} {E : Env}

theorem elems_head {r : RuleCode} {z : Nat × InElem} (h : r.elems.head? = some z) : ∃ es, r.elems = z :: es := by
  cases he : r.elems with
  | nil => rw [he] at h; cases h
  | cons y es => rw [he] at h; cases h; exact ⟨es, rfl⟩

/-- A rule that begins inside a range with which an earlier rule of the same condition begins. -/
theorem inside_never {ok : Nat → Prop} {max : Nat} (hmax : max < 2 ^ (8 * v.kind.width)) (hk : ∀ x, ok x → Elem v.kind x)
    {Q : Nat → List (Nat × Nat)} {R L L' : List RuleCode} {r : RuleCode} (hl : R.length ≤ 254)
    (hok : ∀ x ∈ R, x.Ok ok) (hs : ∀ x ∈ R, scanRule v.kind (x.bytes word) = .ok (x.elems.map (pair v.kind)))
    (hM : (R.filter fun x => decide (x.condition.toNat = r.condition.toNat)) = L ++ r :: L')
    (hL : ∀ x ∈ L, Laid E.sets Q max x) (hap : L.Pairwise fun a b => ∀ g ∈ a.starts Q, g ∉ b.starts Q)
    {y : RuleCode} (hy : y ∈ L) {b i : Nat} (hset : y.elems.head? = some (b, .set i)) {p : Nat × Nat} (hp : p ∈ Q i)
    (hlt : p.1 < p.2) {blk x : Nat} (he : r.elems.head? = some (blk, .one x)) (hx : x ≠ v.kind.none) (h1 : p.1 ≤ x)
    (h2 : x ≤ p.2) (c : Compiler) (s : SettingsCache) (w : List Nat) (out : World × List (List Nat)) :
    World.run v word E (R.map .add ++ [.seq w]) { c := c, s := s } ≠ .ok out := by
  intro h
  have hmem : ∀ z ∈ L ++ r :: L', z ∈ R := fun z hz => by rw [← hM] at hz; exact (List.mem_filter.1 hz).1
  have hrR : r ∈ R := hmem r (by simp)
  obtain ⟨c1, q, hc⟩ := sequence_needs (fun x hx => rok_of (hok x hx) (hs x hx)) hl h hrR
  obtain ⟨Z₁, j, Z₂, hz, hz1, hz2, hz3⟩ := group_split hM hl
  rw [hz, List.map_append, List.map_cons] at hc
  have hin : ∀ z ∈ Z₁, z.1 ∈ L := fun z hz => by rw [← hz1]; exact List.mem_map.2 ⟨z, hz, rfl⟩
  obtain ⟨es, hes⟩ := elems_head he
  obtain ⟨y', hy', rfl⟩ : ∃ y' ∈ Z₁, y'.1 = y := by rw [← hz1] at hy; exact List.mem_map.1 hy
  refine compile_inside_apart (ok := ok) (max := max) (Q := Q)
    (fun z hz => ⟨hok z.1 (hmem z.1 (by simp [hin z hz])), hL z.1 (hin z hz)⟩) hmax
    (fun z hz => hs z.1 (hmem z.1 (by simp [hin z hz]))) hk ?_ hz3 hy' hset hp hlt
    (es := es.map (pair v.kind)) (blk := blk) (x := x) ?_ hx h1 h2 _ q hc
  · rw [← hz1, List.pairwise_map] at hap
    exact hz2.imp₂ (fun _ _ h g => ⟨h, g⟩) hap
  · rw [hs r hrR, hes]
    rfl

/-- A first rule of a condition that begins with a set without elements. -/
theorem empty_never {ok : Nat → Prop} {R L' : List RuleCode} {r : RuleCode} (hl : R.length ≤ 254)
    (hok : ∀ x ∈ R, x.Ok ok) (hs : ∀ x ∈ R, scanRule v.kind (x.bytes word) = .ok (x.elems.map (pair v.kind)))
    (hM : (R.filter fun x => decide (x.condition.toNat = r.condition.toNat)) = r :: L')
    {blk i : Nat} (he : r.elems.head? = some (blk, .set i)) (hlen : 1 < r.elems.length) (hi : i < 255)
    (hset : E.sets i = .ok ([], [])) (c : Compiler) (s : SettingsCache) (w : List Nat) (out : World × List (List Nat)) :
    World.run v word E (R.map .add ++ [.seq w]) { c := c, s := s } ≠ .ok out := by
  intro h
  have hrR : r ∈ R := by
    have : r ∈ R.filter fun x => decide (x.condition.toNat = r.condition.toNat) := by rw [hM]; simp
    exact (List.mem_filter.1 this).1
  obtain ⟨c1, q, hc⟩ := sequence_needs (fun x hx => rok_of (hok x hx) (hs x hx)) hl h hrR
  obtain ⟨Z₁, j, Z₂, hz, hz1, -, -⟩ := group_split (L := []) hM hl
  obtain rfl := List.map_eq_nil_iff.1 hz1
  rw [hz, List.nil_append, List.map_cons] at hc
  obtain ⟨es, hes⟩ := elems_head he
  obtain ⟨y, es', rfl⟩ : ∃ y es', es = y :: es' := by
    cases es with
    | nil => rw [hes] at hlen; simp at hlen
    | cons y es' => exact ⟨y, es', rfl⟩
  cases hcc : c1.compiling with
  | true =>
    unfold compile begin at hc
    rw [if_pos hcc] at hc
    cases hc
  | false =>
    rw [compile_empty hcc (y := pair v.kind y) (es := es'.map (pair v.kind)) (blk := blk) (i := i)
      (by rw [hs r hrR, hes]; rfl) (Nat.ne_of_lt hi) rfl hset] at hc
    cases hc

end

end TesterModel
