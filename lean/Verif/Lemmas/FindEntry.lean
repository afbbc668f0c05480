import Verif.Lemmas.At
import Verif.Lemmas.Search32

/-! # Looking up a code point -/

namespace FontModel.Font
open Go Spec

/-- The keys of the table are in ascending order. -/
def KeysSorted (f : Font) : Prop :=
  ∀ a b, a < b → b < nEntries f.data f →
    u32At f.data (f.offMapping + 2 + 4 * a) < u32At f.data (f.offMapping + 2 + 4 * b)

theorem findEntry_none {f : Font} {target : Nat}
    (hb : mappingEnds f.data f ≤ f.data.length)
    (hs : KeysSorted f)
    (hno : ∀ j < nEntries f.data f, u32At f.data (f.offMapping + 2 + 4 * j) ≠ target) :
    f.findEntry target = .ok none := by
  have hb' : f.offMapping + 2 ≤ f.data.length := by rw [mappingEnds] at hb; omega
  rw [findEntry, numEntries, rd16_eq hb', Res.ok_bind]
  have e : u16At f.data f.offMapping = nEntries f.data f := rfl
  rw [e]
  rw [mappingEnds] at hb
  rw [KeysSorted] at hs
  generalize nEntries f.data f = n at *
  by_cases hn : n = 0
  · subst hn
    simp only [search32_empty, Res.ok_bind]
    rfl
  · obtain ⟨i, hi, he, _⟩ := search32_find (D := f.data) (base := f.offMapping + 2) (target := target)
      (n := n) (by omega) (by omega) hs
    simp only [he, Res.ok_bind, shl2]
    rw [if_neg (by omega), rd32_eq (by omega), Res.ok_bind, if_pos (hno i hi)]
    rfl

theorem findEntry_some {f : Font} {target j : Nat}
    (hs : KeysSorted f) (hj : j < nEntries f.data f)
    (ht : u32At f.data (f.offMapping + 2 + 4 * j) = target)
    (he : start24 f.data (mappingEnds f.data f) j < end24 f.data (mappingEnds f.data f) j)
    (hl : mappingData f.data f + start24 f.data (mappingEnds f.data f) j < f.data.length) :
    f.findEntry target = .ok (some
      (byteAt f.data (mappingData f.data f + start24 f.data (mappingEnds f.data f) j),
       start24 f.data (mappingEnds f.data f) j + 1, end24 f.data (mappingEnds f.data f) j,
       mappingData f.data f)) := by
  have hm : mappingData f.data f = f.offMapping + 2 + 4 * nEntries f.data f + 3 * nEntries f.data f := rfl
  have hm' : mappingEnds f.data f = f.offMapping + 2 + 4 * nEntries f.data f := rfl
  rw [findEntry, numEntries, rd16_eq (by omega), Res.ok_bind]
  have e : u16At f.data f.offMapping = nEntries f.data f := rfl
  rw [e]
  rw [KeysSorted] at hs
  generalize mappingData f.data f = M at *
  generalize mappingEnds f.data f = E at *
  generalize nEntries f.data f = n at *
  obtain ⟨i, hi, he', hu⟩ := search32_find (D := f.data) (base := f.offMapping + 2) (target := target)
      (n := n) (by omega) (by omega) hs
  obtain rfl := hu j hj ht
  simp only [he', Res.ok_bind, shl2, shl1]
  rw [if_neg (by omega), rd32_eq (by omega), Res.ok_bind, if_neg (by simp [ht])]
  rw [show f.offMapping + 2 + 4 * n + j + 2 * j = E + 3 * j by omega, rd24_eq (by omega), Res.ok_bind]
  have es : (if j > 0 then rd24 f.data (E + 3 * j - 3) else Res.ok 0) = .ok (start24 f.data E j) := by
    split
    · rename_i h0
      rw [rd24_eq (by omega), start24_succ _ _ _ h0, end24]
      congr 2; omega
    · have : j = 0 := by omega
      subst this; rfl
  rw [es, Res.ok_bind]
  have ee : u24At f.data (E + 3 * j) = end24 f.data E j := rfl
  rw [ee, if_neg (by omega), show f.offMapping + 2 + 4 * n + n + 2 * n = M by omega,
    rd8_eq hl, Res.ok_bind]
  rfl

end FontModel.Font
