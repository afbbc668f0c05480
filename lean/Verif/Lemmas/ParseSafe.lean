import Verif.Lemmas.ParseFlat
import Verif.Lemmas.Read

/-! # `parseBody` never panics and only looks at data it has read -/

namespace ParseBuf
namespace Prog
open Go FontModel Spec Helpers
variable {α β : Type}

theorem wp_advance {n : Nat} {g : G} {Q : Unit → G → Prop}
    (h : ∀ b : Bytes, b.length = n → Q () ⟨g.c ++ b, g.d, g.e⟩) : wp (advanceBytes n) g Q := by
  unfold advanceBytes
  split
  · rename_i hn
    have := h [] (by simp [hn])
    simp only [List.append_nil] at this; exact this
  · exact ⟨by omega, fun _ => trivial, fun b hb => h b hb⟩

theorem wp_read {n : Nat} {g : G} {Q : Bytes → G → Prop} (hn : 0 < n)
    (h : ∀ b : Bytes, b.length = n → Q b ⟨g.c ++ b, g.d, g.e⟩) : wp (read n) g Q :=
  ⟨hn, fun _ => trivial, fun b hb => h b hb⟩

theorem wp_ofRes {x : Res α} {g : G} {Q : α → G → Prop} {a : α} (hx : x = .ok a) (h : Q a g) :
    wp (ofRes x) g Q := by
  subst hx; exact h

theorem wp_readUint8 {g : G} {Q : Nat → G → Prop}
    (h : ∀ b : Bytes, b.length = 1 → Q (byteAt b 0) ⟨g.c ++ b, g.d, g.e⟩) : wp readUint8 g Q :=
  wp_bind (wp_read (by omega) fun b hb => wp_ofRes (rd8_eq (by omega)) (h b hb))

theorem wp_readUint16 {g : G} {Q : Nat → G → Prop}
    (h : ∀ b : Bytes, b.length = 2 → Q (u16At b 0) ⟨g.c ++ b, g.d, g.e⟩) : wp readUint16 g Q :=
  wp_bind (wp_read (by omega) fun b hb => wp_ofRes (decode16 (by omega)) (h b hb))

theorem wp_readUint24 {g : G} {Q : Nat → G → Prop}
    (h : ∀ b : Bytes, b.length = 3 → Q (u24At b 0) ⟨g.c ++ b, g.d, g.e⟩) : wp readUint24 g Q :=
  wp_bind (wp_read (by omega) fun b hb => wp_ofRes (decode24 (by omega)) (h b hb))

theorem wp_readUint32 {g : G} {Q : Nat → G → Prop}
    (h : ∀ b : Bytes, b.length = 4 → Q (u32At b 0) ⟨g.c ++ b, g.d, g.e⟩) : wp readUint32 g Q :=
  wp_bind (wp_read (by omega) fun b hb => wp_ofRes (decode32 (by omega)) (h b hb))

theorem wp_readUint64 {g : G} {Q : Nat → G → Prop}
    (h : ∀ b : Bytes, b.length = 8 → Q (leValue (b.take 8)) ⟨g.c ++ b, g.d, g.e⟩) :
    wp readUint64 g Q :=
  wp_bind (wp_read (by omega) fun b hb => wp_ofRes (decodeUint64LE_eq (by omega)) (h b hb))

theorem wp_readUint24Ig {g : G} {Q : Nat → G → Prop}
    (h : ∀ b : Bytes, b.length = 3 → Q (u24At b 0) ⟨g.c ++ b, g.d, g.e⟩)
    (h0 : Q 0 ⟨g.c, g.d, g.e + 1⟩) : wp readUint24IgnoringError g Q :=
  ⟨by omega, fun _ => h0, fun b hb => wp_ofRes (decode24 (by omega)) (h b hb)⟩

/-- The program only moves forward. -/
def Adv (p : Prog α) : Prop :=
  ∀ (g : G) (Q : α → G → Prop), (∀ a b, Q a ⟨g.c ++ b, g.d, g.e⟩) → wp p g Q

theorem Adv.bind {p : Prog α} {f : α → Prog β} (hp : Adv p) (hf : ∀ a, Adv (f a)) :
    Adv (p >>= f) := by
  intro g Q hQ
  refine wp_bind (hp _ _ fun a b => hf a _ _ fun a' b' => ?_)
  rw [List.append_assoc]; exact hQ a' (b ++ b')
theorem Adv.fail (m : String) : Adv (.fail m : Prog α) := fun _ _ _ => trivial
theorem Adv.ret (a : α) : Adv (.ret a) := fun g Q h => by
  have := h a []
  simp only [List.append_nil] at this; exact this
theorem Adv.pure (a : α) : Adv (Pure.pure a : Prog α) := Adv.ret a
theorem Adv.advance (n : Nat) : Adv (advanceBytes n) := fun _ _ h => wp_advance fun b _ => h () b
theorem Adv.read {n : Nat} (hn : 0 < n) : Adv (Prog.read n) := fun _ _ h => wp_read hn fun b _ => h b b
theorem Adv.readUint8 : Adv readUint8 := fun _ _ h => wp_readUint8 fun b _ => h _ b
theorem Adv.readUint16 : Adv readUint16 := fun _ _ h => wp_readUint16 fun b _ => h _ b
theorem Adv.readUint24 : Adv readUint24 := fun _ _ h => wp_readUint24 fun b _ => h _ b
theorem Adv.readUint32 : Adv readUint32 := fun _ _ h => wp_readUint32 fun b _ => h _ b
theorem Adv.readUint64 : Adv readUint64 := fun _ _ h => wp_readUint64 fun b _ => h _ b
theorem Adv.here : Adv ParseModel.here := fun g Q h _ => by
  simpa [wp] using h (u32 g.c.length) []
theorem Adv.ite {c : Prop} [Decidable c] {p q : Prog α} (hp : c → Adv p) (hq : ¬ c → Adv q) :
    Adv (if c then p else q) := by
  split
  · exact hp ‹_›
  · exact hq ‹_›

theorem Adv.wp {p : Prog α} (h : Adv p) (g : G) : p.wp g fun _ _ => True := h g _ fun _ _ => trivial

/-- Solve `Adv` goals. -/
syntax "adv" : tactic
macro_rules
  | `(tactic| adv) => `(tactic| repeat' (first
      | exact Adv.readUint8 | exact Adv.readUint16 | exact Adv.readUint24 | exact Adv.readUint32
      | exact Adv.readUint64 | exact Adv.advance _ | exact Adv.fail _ | exact Adv.here
      | exact Adv.pure _ | exact Adv.ret _
      | (refine Adv.read ?_; omega)
      | refine Adv.bind ?_ (fun _ => ?_)
      | refine Adv.ite (fun _ => ?_) (fun _ => ?_)))

theorem Adv.readInt32 : Adv readInt32 := by unfold Prog.readInt32; adv
theorem Adv.readInt8 : Adv readInt8 := by
  intro g Q h
  refine wp_bind (wp_read (by omega) fun b hb => ?_)
  exact wp_bind (wp_ofRes (rd8_eq (by omega)) (h _ _))
theorem Adv.readBool : Adv readBool := by unfold Prog.readBool; adv
theorem Adv.advanceShortSlice : Adv advanceShortSlice := by unfold Prog.advanceShortSlice; adv
theorem Adv.readShortStr : Adv readShortStr := by unfold Prog.readShortStr; adv
theorem Adv.readString : Adv readString := by unfold Prog.readString; adv

end Prog
end ParseBuf

namespace ParseModel
open Go ParseBuf ParseBuf.Prog FontModel Spec

theorem adv_parseDyes (n : Nat) : Adv (parseDyes n) := by unfold parseDyes; adv
theorem adv_parsePalettes (n u : Nat) : Adv (parsePalettes n u) := by unfold parsePalettes; adv
theorem adv_parseGlyphNames (n m : Nat) : Adv (parseGlyphNames n m) := by
  unfold parseGlyphNames; adv
theorem adv_parseWords (n : Nat) : Adv (parseWords n) := by unfold parseWords; adv
theorem adv_parseSettingDefs (n : Nat) : Adv (parseSettingDefs n) := by unfold parseSettingDefs; adv
theorem adv_parseSwitches (n m : Nat) : Adv (parseSwitches n m) := by unfold parseSwitches; adv
theorem adv_parseEntries (n : Nat) : Adv (parseEntries n) := by unfold parseEntries; adv
theorem adv_parseBlocks16 (n m : Nat) : Adv (parseBlocks16 n m) := by unfold parseBlocks16; adv

theorem adv_parseRules {n : Nat} (hn : n > 0) (m : Nat) : Adv (parseRules n m) := by
  intro g Q h
  unfold parseRules
  refine wp_bind (wp_advance fun b _ => wp_bind (wp_readUint24Ig (fun b' _ => ?_) ?_))
  · have : Adv (if u24At b' 0 < n * 8 then
        (.fail "end offsets declare rules to end before allowed" : Prog Unit) else
      if u24At b' 0 > n * m then .fail "end offsets declare rules to end beyond allowed" else
      advanceBytes (u24At b' 0)) := by adv
    refine this _ _ fun a x => ?_
    simp only [List.append_assoc]
    exact h a _
  · rw [if_pos (by omega)]; trivial

theorem wp_onFont {β : Type} {f : Font} {v : Font → Res β} {g : G} {Q : β → G → Prop}
    (hx : ∀ x, v { f with data := g.c.take g.d ++ x } = v { f with data := g.c.take g.d })
    (hp : ∀ m, v { f with data := g.c.take g.d } ≠ .panic m)
    (h : ∀ b, v { f with data := g.c.take g.d } = .ok b → Q b g) : wp (onFont f v) g Q :=
  ⟨hx, h, hp⟩

/-- `syncData` followed by a validation. -/
theorem wp_syncValidate {f : Font} {v : Font → Res Unit} {g : G} {Q : Font → G → Prop}
    (hx : ∀ x, v { f with data := g.c ++ x } = v { f with data := g.c })
    (hp : ∀ m, v { f with data := g.c } ≠ .panic m)
    (h : v { f with data := g.c } = .ok () → Q f ⟨g.c, g.c.length, g.e⟩) :
    wp (do syncData; onFont f v; return f) g Q := by
  refine wp_bind (?_ : wp (onFont f v >>= fun _ => pure f) _ Q)
  refine wp_bind (wp_onFont ?_ ?_ ?_)
  · simpa using hx
  · simpa using hp
  · intro b hb
    exact h (by simpa using hb)

theorem wp_readShortStr {g : G} {Q : Bytes → G → Prop}
    (h : ∀ b s : Bytes, b.length = 1 → s.length = byteAt b 0 → Q s ⟨g.c ++ (b ++ s), g.d, g.e⟩) :
    wp readShortStr g Q := by
  refine wp_bind (wp_readUint8 fun b hb => ?_)
  split
  · rename_i h0
    have := h b [] hb (by simp [h0])
    simp only [List.append_nil] at this; exact this
  · refine wp_read (by omega) fun s hs => ?_
    simpa using h b s hb hs

theorem validateHeader_append {f : Font} {a x : Bytes} (h1 : 29 < a.length)
    (h2 : 29 + byteAt a 28 ≤ a.length) :
    Font.validateHeader { f with data := a ++ x } = Font.validateHeader { f with data := a } := by
  simp only [Font.validateHeader, Font.formatVersion, Font.id, Font.name]
  rw [rd32_append (by omega), rd64_append (by omega), rd8_append (by omega), rd8_eq (by omega)]
  simp only [Res.ok_bind]
  rw [unsafeString_append h1 h2]

theorem validateHeader_noPanic {f : Font} (h1 : 29 < f.data.length)
    (h2 : 29 + byteAt f.data 28 ≤ f.data.length) (m : String) :
    Font.validateHeader f ≠ .panic m := by
  simp only [Font.validateHeader, Font.formatVersion, Font.id, Font.name]
  rw [rd32_eq (by omega), rd64_ok (by omega), rd8_eq (by omega)]
  simp only [Res.ok_bind]
  rw [unsafeString_eq h1 h2]
  simp only [Res.ok_bind, Res.pure_eq]
  split_ifs <;> simp

theorem validateMetrics_append {f : Font} {a x : Bytes} (h : f.offMetrics + 15 ≤ a.length) :
    Font.validateMetrics { f with data := a ++ x } = Font.validateMetrics { f with data := a } := by
  simp only [Font.validateMetrics, Font.numGlyphs, Font.ascent, Font.extraAscent,
    Font.vertInterspacing, Font.hasVertLayout]
  rw [rd16_append (by omega), rd8_append (by omega), rd8_append (by omega), rd8_append (by omega),
    rd8_append (by omega)]
  rw [idx_lt (l := a ++ x) (by simp; omega), idx_lt (l := a) (by omega), List.getElem_append_left]

theorem boolErrCheck_noPanic (b : UInt8) (m : String) : Helpers.boolErrCheck b ≠ .panic m := by
  unfold Helpers.boolErrCheck
  split <;> simp

theorem validateMetrics_noPanic {f : Font} (h : f.offMetrics + 15 ≤ f.data.length) (m : String) :
    Font.validateMetrics f ≠ .panic m := by
  simp only [Font.validateMetrics, Font.numGlyphs, Font.ascent, Font.extraAscent,
    Font.vertInterspacing, Font.hasVertLayout]
  rw [rd16_eq (by omega), rd8_eq (by omega), rd8_eq (by omega), rd8_eq (by omega),
    rd8_eq (by omega), idx_lt (by omega)]
  simp only [Res.ok_bind, Res.pure_eq]
  split_ifs
  · simp
  all_goals
    cases hb : Helpers.boolErrCheck f.data[f.offMetrics + 2] with
    | ok u => simp
    | err e => simp
    | panic e => exact absurd hb (boolErrCheck_noPanic _ _)

theorem validateColor_append {f : Font} {a x : Bytes} (h : f.offDyes < a.length)
    (h' : f.offPalettes < a.length) :
    Font.validateColor { f with data := a ++ x } = Font.validateColor { f with data := a } := by
  simp only [Font.validateColor, Font.numDyes, Font.numPalettes]
  rw [rd8_append (by omega), rd8_append (by omega)]

theorem validateColor_noPanic {f : Font} (h : f.offDyes < f.data.length)
    (h' : f.offPalettes < f.data.length) (m : String) : Font.validateColor f ≠ .panic m := by
  simp only [Font.validateColor, Font.numDyes, Font.numPalettes]
  rw [rd8_eq (by omega), rd8_eq (by omega)]
  simp only [Res.ok_bind, Res.pure_eq]
  split_ifs <;> simp

theorem validateGlyphs_append {f : Font} {a x : Bytes} (h : f.offGlyphNames + 2 ≤ a.length)
    (h' : f.offMetrics + 2 ≤ a.length) :
    Font.validateGlyphs { f with data := a ++ x } = Font.validateGlyphs { f with data := a } := by
  simp only [Font.validateGlyphs, Font.namedCount, Font.numGlyphs]
  rw [rd16_append (by omega), rd16_append (by omega)]

theorem validateGlyphs_noPanic {f : Font} (h : f.offGlyphNames + 2 ≤ f.data.length)
    (h' : f.offMetrics + 2 ≤ f.data.length) (m : String) : Font.validateGlyphs f ≠ .panic m := by
  simp only [Font.validateGlyphs, Font.namedCount, Font.numGlyphs]
  rw [rd16_eq (by omega), rd16_eq (by omega)]
  simp only [Res.ok_bind, Res.pure_eq]
  split_ifs <;> simp

theorem wp_here {g : G} {Q : Nat → G → Prop} (he : g.e = 0) (h : Q g.c.length g) :
    wp here g Q := by
  intro hc
  have : u32 g.c.length = g.c.length := by
    simp only [G.cap, he, maxFontDataSize, Nat.shiftLeft_eq] at hc
    simp only [u32]; omega
  show Q (u32 g.c.length) g
  rw [this]; exact h

theorem wp_parseHeader (f : Font) {Q : Font → G → Prop}
    (h : ∀ c : Bytes, 30 ≤ c.length → Q f ⟨c, c.length, 0⟩) :
    wp (parseHeader f) ⟨[], 0, 0⟩ Q := by
  unfold parseHeader
  refine wp_bind (wp_advance fun b0 h0 => wp_bind (wp_readShortStr fun b1 s1 h1 l1 =>
    wp_bind (wp_readShortStr fun b2 s2 h2 _ => wp_bind (Adv.readShortStr _ _ fun _ b3 =>
    wp_bind (Adv.readString _ _ fun _ b4 => ?_)))))
  have hb : byteAt ([] ++ b0 ++ (b1 ++ s1) ++ (b2 ++ s2) ++ b3 ++ b4) 28 = s1.length := by
    simp only [List.nil_append, List.append_assoc]
    rw [byteAt_append_right (by omega), l1, byteAt_append_left (by omega), h0]
  have hl : 30 + s1.length ≤ ([] ++ b0 ++ (b1 ++ s1) ++ (b2 ++ s2) ++ b3 ++ b4).length := by
    simp only [List.length_append, List.length_nil]; omega
  revert hb hl
  simp only
  generalize ([] ++ b0 ++ (b1 ++ s1) ++ (b2 ++ s2) ++ b3 ++ b4) = c
  intro hb hl
  refine wp_syncValidate (fun x => ?_) (fun m => ?_) (fun _ => h c (by omega))
  · exact validateHeader_append (by simp only; omega) (by simp only; omega)
  · exact validateHeader_noPanic (by simp only; omega) (by simp only; omega) m

/-- What later sections may assume. -/
structure AfterMetrics (f : Font) (g : G) : Prop where
  e : g.e = 0
  d : f.offMetrics + 15 ≤ g.d
  dle : g.d ≤ g.c.length

theorem wp_parseMetrics (f : Font) {g : G} {Q : Font → G → Prop} (he : g.e = 0)
    (h : ∀ f' g', AfterMetrics f' g' → Q f' g') : wp (parseMetrics f) g Q := by
  unfold parseMetrics
  refine wp_bind (wp_here he (wp_bind (wp_advance fun b hb => ?_)))
  refine wp_syncValidate (fun x => ?_) (fun m => ?_) (fun _ => h _ _ ⟨he, ?_, Nat.le_refl _⟩)
  · exact validateMetrics_append (by simp; omega)
  · exact validateMetrics_noPanic (by simp; omega) m
  · simp; omega

theorem adv_when {c : Prop} [Decidable c] {p : Prog Unit} (h : c → Adv p) :
    Adv (if c then p else pure ()) := Adv.ite h fun _ => Adv.pure _

theorem wp_parseColor {f : Font} {g : G} {Q : Font → G → Prop} (hg : AfterMetrics f g)
    (h : ∀ f' g', AfterMetrics f' g' → Q f' g') : wp (parseColor f) g Q := by
  have hd := hg.d; have hdle := hg.dle
  unfold parseColor
  refine wp_bind (wp_here hg.e (wp_bind (wp_readUint8 fun b1 h1 => wp_bind ?_)))
  have hA : Adv (if byteAt b1 0 > 0 then parseDyes (byteAt b1 0) else .ret 0) :=
    Adv.ite (fun _ => adv_parseDyes _) fun _ => Adv.ret _
  refine hA _ _ fun u b2 => wp_bind (wp_here hg.e (wp_bind (wp_readUint8 fun b3 h3 => ?_)))
  have fin : ∀ b4 : Bytes, wp (do
      syncData
      onFont ({ f with offDyes := g.c.length, offPalettes := (g.c ++ b1 ++ b2).length })
        Font.validateColor
      return ({ f with offDyes := g.c.length, offPalettes := (g.c ++ b1 ++ b2).length }))
      ⟨g.c ++ b1 ++ b2 ++ b3 ++ b4, g.d, g.e⟩ Q := by
    intro b4
    refine wp_syncValidate (fun x => ?_) (fun m => ?_) (fun _ => h _ _ ⟨hg.e, ?_, Nat.le_refl _⟩)
    · exact validateColor_append (by simp; omega) (by simp; omega)
    · exact validateColor_noPanic (by simp; omega) (by simp; omega) m
    · simp; omega
  split
  · exact wp_bind (adv_parsePalettes _ _ _ _ fun _ b4 => fin b4)
  · have := fin []
    rw [List.append_nil] at this
    exact this

theorem wp_when {c : Prop} [Decidable c] {β : Type} {p : Prog Unit} {k : Unit → Prog β} {g : G}
    {Q : β → G → Prop} (hp : c → Adv p) (h : ∀ b, wp (k ()) ⟨g.c ++ b, g.d, g.e⟩ Q) :
    wp (if c then p >>= k else k ()) g Q := by
  split
  · exact wp_bind (hp ‹_› _ _ fun _ b => h b)
  · have := h []
    rw [List.append_nil] at this
    exact this

theorem wp_numGlyphs {f : Font} {g : G} {Q : Nat → G → Prop} (h1 : f.offMetrics + 2 ≤ g.d)
    (h2 : g.d ≤ g.c.length) (h : ∀ n, n < 65536 → Q n g) : wp (onFont f Font.numGlyphs) g Q := by
  have hl : (g.c.take g.d).length = g.d := by simp; omega
  refine wp_onFont (fun x => ?_) (fun m => ?_) (fun b hb => ?_)
  · exact rd16_append (by simp only; omega)
  · simp only [Font.numGlyphs]; rw [rd16_eq (by omega)]; simp
  · simp only [Font.numGlyphs] at hb
    rw [rd16_eq (by omega)] at hb
    injection hb with hb
    exact hb ▸ h _ (u16At_lt _ _)

theorem wp_hasVertLayout {f : Font} {g : G} {Q : Bool → G → Prop} (h1 : f.offMetrics + 3 ≤ g.d)
    (h2 : g.d ≤ g.c.length) (h : ∀ b, Q b g) : wp (onFont f Font.hasVertLayout) g Q := by
  have hl : (g.c.take g.d).length = g.d := by simp; omega
  refine wp_onFont (fun x => ?_) (fun m => ?_) (fun b hb => h b)
  · simp only [Font.hasVertLayout]; rw [rd8_append (by omega)]
  · simp only [Font.hasVertLayout]; rw [rd8_eq (by omega)]; simp

theorem wp_syncValidate2 {β : Type} {r : β} {f : Font} {v : Font → Res Unit} {g : G}
    {Q : β → G → Prop}
    (hx : ∀ x, v { f with data := g.c ++ x } = v { f with data := g.c })
    (hp : ∀ m, v { f with data := g.c } ≠ .panic m)
    (h : Q r ⟨g.c, g.c.length, g.e⟩) :
    wp (do syncData; onFont f v; return r) g Q := by
  refine wp_bind (?_ : wp (onFont f v >>= fun _ => pure r) _ Q)
  refine wp_bind (wp_onFont ?_ ?_ ?_)
  · simpa using hx
  · simpa using hp
  · intro b hb
    exact h

theorem wp_parseGlyphs {f : Font} {g : G} {Q : Font × Nat → G → Prop} (hg : AfterMetrics f g)
    (h : ∀ f' n g', AfterMetrics f' g' → n < 65536 → Q (f', n) g') : wp (parseGlyphs f) g Q := by
  have hd := hg.d; have hdle := hg.dle
  unfold parseGlyphs
  refine wp_bind (wp_here hg.e (wp_bind (wp_readUint16 fun b1 h1 => wp_bind ?_)))
  refine wp_numGlyphs (by simp only; omega) (by simp; omega) fun n hn => ?_
  refine wp_bind (wp_hasVertLayout (by simp only; omega) (by simp; omega) fun v => ?_)
  refine wp_when (fun _ => adv_parseGlyphNames _ _) fun b2 => ?_
  generalize sub16 n 1 * 3 = t
  refine wp_bind (wp_here hg.e (wp_bind (wp_advance fun b3 h3 => wp_bind (wp_readUint24 fun b4 h4 => ?_))))
  simp only
  generalize (if v = true then 4 else 1) = ps
  split
  · trivial
  · split
    · trivial
    · refine wp_bind (wp_advance fun b5 h5 => ?_)
      refine wp_syncValidate2 (fun x => ?_) (fun m => ?_) (h _ _ _ ⟨hg.e, ?_, Nat.le_refl _⟩ hn)
      · exact validateGlyphs_append (by simp; omega) (by simp; omega)
      · exact validateGlyphs_noPanic (by simp; omega) (by simp; omega) m
      · simp; omega

theorem AfterMetrics.append {f f' : Font} {g : G} (h : AfterMetrics f g)
    (hf : f'.offMetrics = f.offMetrics) (b : Bytes) :
    AfterMetrics f' ⟨g.c ++ b, g.d, g.e⟩ := by
  refine ⟨h.e, by rw [hf]; exact h.d, ?_⟩
  have := h.dle
  simp; omega

theorem AfterMetrics.sync {f f' : Font} {g : G} (h : AfterMetrics f g)
    (hf : f'.offMetrics = f.offMetrics) :
    AfterMetrics f' ⟨g.c, g.c.length, g.e⟩ :=
  ⟨h.e, by rw [hf]; exact Nat.le_trans h.d h.dle, Nat.le_refl _⟩

theorem wp_sync {β : Type} {k : Unit → Prog β} {g : G} {Q : β → G → Prop}
    (h : wp (k ()) ⟨g.c, g.c.length, g.e⟩ Q) : wp (syncData >>= k) g Q := h

theorem wp_parseSettings {f : Font} {g : G} {Q : Font × Nat → G → Prop} (hg : AfterMetrics f g)
    (h : ∀ f' n g', AfterMetrics f' g' → Q (f', n) g') : wp (parseSettings f) g Q := by
  unfold parseSettings
  refine wp_bind (wp_here hg.e (wp_bind (wp_readUint8 fun b1 h1 => ?_)))
  refine wp_when (fun _ => adv_parseWords _) fun b2 => ?_
  refine wp_bind (wp_here hg.e (wp_bind (wp_readUint8 fun b3 h3 => wp_bind ?_)))
  have hA : ∀ o, Adv (if byteAt b3 0 > 0 then parseSettingDefs (byteAt b3 0) else .ret o) :=
    fun o => Adv.ite (fun _ => adv_parseSettingDefs _) fun _ => Adv.ret _
  refine hA _ _ _ fun u b4 => wp_sync ?_
  exact h _ _ _ (((((hg.append rfl b1).append rfl b2).append rfl b3).append rfl b4).sync rfl)

theorem wp_parseMapping {f : Font} {n : Nat} {g : G} {Q : Font → G → Prop} (hg : AfterMetrics f g)
    (h : ∀ f' g', AfterMetrics f' g' → Q f' g') : wp (parseMapping f n) g Q := by
  unfold parseMapping
  refine wp_bind (wp_here hg.e (wp_bind (wp_readUint8 fun b1 h1 => ?_)))
  simp only
  split
  · trivial
  refine wp_when (fun _ => adv_parseSwitches _ _) fun b2 => ?_
  refine wp_bind (wp_here hg.e (wp_bind (wp_readUint16 fun b3 h3 => ?_)))
  refine wp_when (fun _ => adv_parseEntries _) fun b4 => wp_sync ?_
  exact h _ _ (((((hg.append rfl b1).append rfl b2).append rfl b3).append rfl b4).sync rfl)

theorem wp_parseRewrites {f : Font} {g : G} {Q : Font → G → Prop} (hg : AfterMetrics f g)
    (h : ∀ f' g', AfterMetrics f' g' → Q f' g') : wp (parseRewrites f) g Q := by
  unfold parseRewrites
  refine wp_bind (wp_here hg.e (wp_bind (wp_readUint8 fun b1 h1 => ?_)))
  refine wp_when (fun _ => adv_parseBlocks16 _ _) fun b2 => ?_
  refine wp_bind (wp_here hg.e (wp_bind (wp_readUint8 fun b3 h3 => ?_)))
  refine wp_when (fun _ => adv_parseBlocks16 _ _) fun b4 => ?_
  refine wp_bind (wp_here hg.e (wp_bind (wp_readUint8 fun b5 h5 => ?_)))
  refine wp_when (fun _ => adv_parseBlocks16 _ _) fun b6 => ?_
  refine wp_bind (wp_here hg.e (wp_bind (wp_readUint16 fun b7 h7 => ?_)))
  refine wp_when (fun hn => adv_parseRules hn _) fun b8 => ?_
  refine wp_bind (wp_here hg.e (wp_bind (wp_readUint16 fun b9 h9 => ?_)))
  refine wp_when (fun hn => adv_parseRules hn _) fun b10 => wp_sync ?_
  exact h _ _ (((((((((((hg.append rfl b1).append rfl b2).append rfl b3).append rfl b4).append
    rfl b5).append rfl b6).append rfl b7).append rfl b8).append rfl b9).append rfl b10).sync rfl)

theorem wp_parseUpToKerning : wp parseUpToKerning ⟨[], 0, 0⟩
    (fun r g => AfterMetrics r.1 g ∧ r.2 < 65536) := by
  unfold parseUpToKerning
  refine wp_bind (wp_parseHeader _ fun c hc => wp_bind (wp_parseMetrics _ rfl fun f g hg =>
    wp_bind (wp_parseColor hg fun f g hg => wp_bind (wp_parseGlyphs hg fun f n g hg hn =>
    wp_bind (wp_parseSettings hg fun f m g hg => wp_bind (wp_parseMapping hg fun f g hg =>
    wp_bind (wp_parseRewrites hg fun f g hg => ?_)))))))
  exact ⟨hg, hn⟩

theorem wp_parseKernTable {n : Nat} {g : G} {Q : Unit → G → Prop} (h : ∀ g', Q () g') :
    wp (parseKernTable n) g Q := by
  unfold parseKernTable
  refine wp_bind (wp_readUint24Ig (fun b hb => ?_) ?_)
  · split
    · split
      · trivial
      · exact wp_advance fun _ _ => h _
    · exact h _
  · simp only [gt_iff_lt, Nat.lt_irrefl, ↓reduceIte]
    exact h _

theorem wp_here' {g : G} {Q : Nat → G → Prop} (h : Q (u32 g.c.length) g) : wp here g Q :=
  fun _ => h

theorem wp_parseKerning {f : Font} {n : Nat} {g : G} :
    wp (parseKerning f n) g fun _ g' => g'.d = g'.c.length := by
  unfold parseKerning
  refine wp_bind (wp_here' (wp_bind (wp_parseKernTable fun g' => wp_bind (wp_here'
    (wp_bind (wp_parseKernTable fun g'' => wp_sync ?_))))))
  exact (rfl : g''.c.length = g''.c.length)

theorem wp_parseBody : wp parseBody ⟨[], 0, 0⟩ fun _ g => g.d = g.c.length := by
  unfold parseBody
  exact wp_bind (wp_mono wp_parseUpToKerning fun r g _ _ => wp_parseKerning)

end ParseModel
