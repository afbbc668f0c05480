import Verif.Lemmas.WellMade
import Verif.Lemmas.BuildSafe
import Verif.Spec.Size

/-! # The size of built fonts -/

namespace BuilderModel
open Go Helpers Spec Spec.Size

theorem total_perm {α : Type} (f : α → Nat) {l l' : List α} (h : l.Perm l') : total f l = total f l' :=
  (h.map f).sum_nat

theorem total_cons {α : Type} (f : α → Nat) (a : α) (l : List α) : total f (a :: l) = f a + total f l := by
  rw [total, total, List.map_cons, List.sum_cons]

theorem encodedLen_ok (x : Bytes) : encodedLen (.ok x) = x.length := rfl

theorem flatten_total {α : Type} {f : α → Bytes} (l : List α) : ((l.map f).flatten).length = total (fun a => (f a).length) l := by
  rw [List.length_flatten, List.map_map]; rfl

theorem mapRes_total {α : Type} {f : α → Res Bytes} : ∀ {l : List α} {ys : List Bytes}, mapRes f l = .ok ys →
    (ys.map List.length).sum = total (fun a => encodedLen (f a)) l ∧ ys.length = l.length
  | [], ys, h => by
    simp only [mapRes, Res.ok.injEq] at h
    subst h; exact ⟨rfl, rfl⟩
  | a :: l, ys, h => by
    simp only [mapRes, Res.bind_eq_ok, Res.pure_eq, Res.ok.injEq] at h
    obtain ⟨y, hy, ys', hys, rfl⟩ := h
    obtain ⟨h1, h2⟩ := mapRes_total hys
    refine ⟨?_, by simp [h2]⟩
    simp only [List.map_cons, List.sum_cons, total, hy, encodedLen] at h1 ⊢
    rw [h1]

theorem mapRes_len {α β : Type} {f : α → Res β} : ∀ {l : List α} {ys : List β}, mapRes f l = .ok ys → ys.length = l.length
  | [], ys, h => by
    simp only [mapRes, Res.ok.injEq] at h
    subst h; rfl
  | a :: l, ys, h => by
    simp only [mapRes, Res.bind_eq_ok, Res.pure_eq, Res.ok.injEq] at h
    obtain ⟨y, hy, ys', hys, rfl⟩ := h
    simp [mapRes_len hys]

theorem ends8_len : ∀ {l : List Nat} {off : Nat} {x : Bytes}, ends8 off l = .ok x → x.length = l.length
  | [], _, x, h => by
    simp only [ends8, Res.ok.injEq] at h
    subst h; rfl
  | n :: l, off, x, h => by
    simp only [ends8, ite_panic, Res.bind_eq_ok, Res.pure_eq, Res.ok.injEq] at h
    obtain ⟨_, r, hr, rfl⟩ := h
    simp [ends8_len hr]

theorem total_eq {α : Type} {f g : α → Nat} {l : List α} (h : ∀ a ∈ l, f a = g a) : total f l = total g l := by
  rw [total, total, List.map_congr_left h]

namespace Builder
variable {b : Builder}

theorem header_size {x : Bytes} (h : b.headerSection = .ok x) :
    x.length = 33 + b.fontName.length + b.fontFamily.length + b.fontAuthor.length + b.fontAbout.length := by
  simp only [headerSection, appendShortString, appendString, ite_panic, Res.bind_eq_ok, Res.ok.injEq] at h
  obtain ⟨_, ⟨_, rfl⟩, _, ⟨_, rfl⟩, _, ⟨_, rfl⟩, _, rfl⟩ := h
  simp only [List.length_append, appendUint32LE, appendUint64LE, appendUint16LE, dateBytes, List.length_cons,
    List.length_nil]
  omega

theorem metrics_size : b.metricsSection.length = 15 := rfl

theorem dyes_size {x : Bytes} (h : b.dyesSection = .ok x) :
    x.length = 1 + 3 * b.dyes.length + total (·.alphas.length) b.dyes + total (·.name.length) b.dyes := by
  simp only [dyesSection, Res.bind_eq_ok, Res.pure_eq, Res.ok.injEq] at h
  obtain ⟨e, he, rfl⟩ := h
  have := ends8_len he
  simp only [List.length_append, List.length_cons, List.length_nil, ends16_length, flatten_total, List.length_map] at this ⊢
  omega

theorem palettes_size {x : Bytes} (h : b.palettesSection = .ok x) :
    x.length = 1 + 3 * b.palettes.length + 4 * total (·.colors.length) b.palettes + total (·.name.length) b.palettes := by
  simp only [palettesSection, Res.bind_eq_ok, Res.pure_eq, Res.ok.injEq] at h
  obtain ⟨e, he, rfl⟩ := h
  have := ends8_len he
  have h4 : total (fun p : Palette => total (fun c => (rgbaBytes c).length) p.colors) b.palettes =
      4 * total (·.colors.length) b.palettes := by
    have key : ∀ l : List RGBA, total (fun c => (rgbaBytes c).length) l = 4 * l.length := by
      intro l
      rw [total]
      induction l with
      | nil => rfl
      | cons c l ih =>
        rw [List.map_cons, List.sum_cons, ih, List.length_cons, rgbaBytes]
        simp only [List.length_cons, List.length_nil]; omega
    simp only [key]
    rw [total, total]
    induction b.palettes with
    | nil => rfl
    | cons c l ih => simp only [List.map_cons, List.sum_cons, ih]; omega
  simp only [List.length_append, List.length_cons, List.length_nil, ends16_length, flatten_total, List.length_map, h4] at this ⊢
  omega

theorem namedLoop_size : ∀ {l : List Nat} {named : List (Nat × Bytes)}, b.namedLoop l = .ok named →
    5 * named.length + total (·.2.length) named = total (nameSize b) l
  | [], named, h => by
    simp only [namedLoop, Res.ok.injEq] at h; subst h; rfl
  | u :: l, named, h => by
    simp only [namedLoop, Res.bind_eq_ok, Res.pure_eq, Res.ok.injEq] at h
    obtain ⟨g, hg, rest, hr, rfl⟩ := h
    have ih := namedLoop_size hr
    have hget : b.glyphData.get u = some g := by
      rw [glyph] at hg
      split at hg
      · rename_i h; rw [h, Res.ok.inj hg]
      · cases hg
    simp only [total, List.map_cons, List.sum_cons, nameSize, hget] at ih ⊢
    by_cases hn : g.name = []
    · simp only [hn, ne_eq, not_true_eq_false, if_false, if_true]
      omega
    · simp only [hn, ne_eq, not_false_eq_true, if_true, if_false, List.map_cons, List.sum_cons, List.length_cons]
      omega

theorem glyphNames_size {x : Bytes} (h : b.glyphNamesSection = .ok x) : x.length = 2 + total (nameSize b) b.glyphOrder := by
  simp only [glyphNamesSection, Res.bind_eq_ok] at h
  obtain ⟨named, hn, h⟩ := h
  have hs := namedLoop_size hn
  split at h
  · rename_i he
    rw [Res.pure_eq, Res.ok.injEq] at h
    subst h
    rw [he] at hs
    simp only [List.length_nil, total, List.map_nil, List.sum_nil] at hs
    simp only [appendUint16LE, List.length_append, List.length_cons, List.length_nil, total]
    omega
  · simp only [Res.bind_eq_ok, Res.pure_eq, Res.ok.injEq] at h
    obtain ⟨_, _, rfl⟩ := h
    have hp := isort_perm nameLe named
    have h1 := total_perm (·.2.length) hp
    have h2 := hp.length_eq
    have h3 : total (fun e : Nat × Bytes => (appendUint16LE [] ((b.glyphIndex e.1).getD 0)).length) (isort nameLe named) =
        2 * named.length := by
      rw [← h2, total]
      induction isort nameLe named with
      | nil => rfl
      | cons c l ih => rw [List.map_cons, List.sum_cons, ih, List.length_cons]; simp only [appendUint16LE, List.length_append, List.length_cons, List.length_nil]; omega
    simp only [List.length_append, flatten_total, ends24_length, List.length_map, h3, h2, h1]
    simp only [appendUint16LE, List.length_append, List.length_cons, List.length_nil]
    omega

theorem masks_size {env : Env} {x : Bytes} (h : b.glyphMasksSection env = .ok x) :
    x.length = 3 * b.glyphOrder.length + total (fun u => encodedLen (b.glyphBlock env u)) b.glyphOrder := by
  simp only [glyphMasksSection, Res.bind_eq_ok, Res.pure_eq, Res.ok.injEq] at h
  obtain ⟨bl, hb, rfl⟩ := h
  obtain ⟨h1, h2⟩ := mapRes_total hb
  rw [List.length_append, ends24_length, List.length_map, h2, List.length_flatten, h1]

theorem words_size {env : Env} (hf : Fair env) {words : GoMap Bytes Int} {x : Bytes} (h : wordsSection env words = .ok x) :
    x.length = 1 + 2 * words.length + total List.length words.keys := by
  simp only [wordsSection, ite_panic] at h
  obtain ⟨_, h⟩ := h
  split at h
  · rename_i he
    rw [Res.pure_eq, Res.ok.injEq] at h
    subst h; subst he; rfl
  · simp only [Res.bind_eq_ok, Res.pure_eq, Res.ok.injEq] at h
    obtain ⟨_, _, rfl⟩ := h
    have h1 := (hf.ends words.keys).length_eq
    have h2 := total_perm List.length (hf.words words.keys)
    have h3 : words.keys.length = words.length := by simp [GoMap.keys]
    simp only [List.length_append, List.length_cons, List.length_nil, ends16_length, List.length_map, List.length_flatten, h1, h3]
    rw [total, total] at h2
    rw [total, h2]

theorem settingNames_size {x : Bytes} (h : b.settingNamesSection = .ok x) :
    x.length = 1 + 2 * b.settings.length + total (·.name.length) b.settings := by
  simp only [settingNamesSection, ite_panic, Res.ok.injEq] at h
  obtain ⟨_, rfl⟩ := h
  simp only [List.length_append, List.length_cons, List.length_nil, ends16_length, flatten_total, List.length_map]

theorem settingDefs_size {w bi : GoMap Bytes Int} {x : Bytes} (h : b.settingDefsSection bi w = .ok x) :
    x.length = 2 * b.settings.length + total (·.options.length) b.settings := by
  simp only [settingDefsSection, Res.bind_eq_ok, Res.pure_eq, Res.ok.injEq] at h
  obtain ⟨bl, hb, rfl⟩ := h
  obtain ⟨h1, h2⟩ := mapRes_total hb
  rw [List.length_append, ends16_length, List.length_map, List.length_flatten, h1]
  congr 1
  refine total_eq fun s hs => ?_
  obtain ⟨y, hy⟩ := mapRes_mem hb s hs
  rw [hy, encodedLen, mapRes_len hy]

theorem switches_size {x : Bytes} (h : b.switchesSection = .ok x) :
    x.length = 1 + 2 * b.switches.length + total List.length b.switches := by
  simp only [switchesSection, ite_panic, Res.bind_eq_ok, Res.pure_eq, Res.ok.injEq] at h
  obtain ⟨_, _, _, rfl⟩ := h
  simp only [List.length_append, List.length_cons, List.length_nil, ends16_length, flatten_total, List.length_map]

theorem casesBytes_size : ∀ {gs : List MapGroup} {len : Nat} {x : Bytes}, b.casesBytes len gs = .ok x →
    x.length = total (fun g => encodedLen (b.groupBytes g)) gs
  | [], _, x, h => by
    simp only [casesBytes, Res.ok.injEq] at h; subst h; rfl
  | g :: gs, len, x, h => by
    simp only [casesBytes, Res.bind_eq_ok, ite_err, Res.pure_eq, Res.ok.injEq] at h
    obtain ⟨y, hy, _, z, hz, rfl⟩ := h
    have ih := casesBytes_size hz
    simp only [total, List.map_cons, List.sum_cons, hy, encodedLen, List.length_append] at ih ⊢
    omega

theorem entryBytes_size {len : Nat} {e : MapEntry} {x : Bytes} (h : b.entryBytes len e = .ok x) :
    x.length = entrySize b e := by
  rw [entryBytes] at h
  rw [entrySize]
  split at h
  · rename_i h1
    rw [if_pos h1]
    split at h
    · split at h
      · simp only [Res.bind_eq_ok, Res.pure_eq, Res.ok.injEq] at h
        obtain ⟨i, _, rfl⟩ := h
        rfl
      · cases h
    · cases h
  · rename_i h1
    rw [if_neg h1]
    split at h
    · split at h
      · rename_i g hg
        simp only [ite_panic, Res.bind_eq_ok, Res.pure_eq, Res.ok.injEq] at h
        obtain ⟨_, y, hy, rfl⟩ := h
        simp only [hg, total, List.map_cons, List.map_nil, List.sum_cons, List.sum_nil, hy, encodedLen, List.length_append,
          List.length_cons, List.length_nil]
        omega
      · cases h
    · simp only [Res.bind_eq_ok, Res.pure_eq, Res.ok.injEq] at h
      obtain ⟨y, hy, rfl⟩ := h
      rw [List.length_append, casesBytes_size hy]; rfl

/-- The size of the entry of a code point. -/
def keySize (b : Builder) (c : Int) : Nat :=
  match b.runeMapping.get c with
  | some e => entrySize b e
  | none => 0

theorem entriesLoop_size : ∀ {cs : List Int} {len : Nat} {xs : List Bytes}, b.entriesLoop len cs = .ok xs →
    (xs.map List.length).sum = total b.keySize cs ∧ xs.length = cs.length
  | [], _, xs, h => by
    simp only [entriesLoop, Res.ok.injEq] at h; subst h; exact ⟨rfl, rfl⟩
  | c :: cs, len, xs, h => by
    rw [entriesLoop] at h
    split at h
    · cases h
    · rename_i e he
      simp only [Res.bind_eq_ok, ite_panic, Res.pure_eq, Res.ok.injEq] at h
      obtain ⟨n, _, _, y, hy, z, hz, rfl⟩ := h
      obtain ⟨h1, h2⟩ := entriesLoop_size hz
      have h3 := entryBytes_size hy
      simp only [total, List.map_cons, List.sum_cons, keySize, he, List.length_cons, h2, h3, and_true] at h1 ⊢
      rw [h1]

theorem keys_total (hk : b.runeMapping.keys.Nodup) {l : List Int} (hl : l.Perm b.runeMapping.keys) :
    total b.keySize l = total (fun e => entrySize b e.2) b.runeMapping := by
  rw [total_perm _ hl, GoMap.keys, total, total, List.map_map]
  congr 1
  refine List.map_congr_left fun e he => ?_
  simp only [Function.comp, keySize, GoMap.get_of_mem hk he]

theorem mapping_size (hk : b.runeMapping.keys.Nodup) {len : Nat} {x : Bytes} (h : b.mappingSection len = .ok x) :
    x.length = codePointsSize b := by
  simp only [mappingSection, ite_panic, Res.bind_eq_ok, Res.pure_eq, Res.ok.injEq] at h
  obtain ⟨_, _, bl, hb, rfl⟩ := h
  obtain ⟨h1, h2⟩ := entriesLoop_size hb
  have hp := isort_perm (fun x y : Int => decide (x ≤ y)) b.runeMapping.keys
  rw [keys_total hk hp] at h1
  have h3 := hp.length_eq
  have h4 : b.runeMapping.keys.length = b.runeMapping.length := by simp [GoMap.keys]
  have h5 : total (fun c : Int => (appendUint32LE [] c.toNat).length) (isort (fun x y => decide (x ≤ y)) b.runeMapping.keys) =
      4 * b.runeMapping.length := by
    rw [← h4, ← h3, total]
    induction isort (fun x y : Int => decide (x ≤ y)) b.runeMapping.keys with
    | nil => rfl
    | cons c l ih => rw [List.map_cons, List.sum_cons, ih, List.length_cons]; simp only [appendUint32LE, List.length_append, List.length_cons, List.length_nil]; omega
  simp only [List.length_append, flatten_total, h5]
  simp only [ends24_length, List.length_map, h2, h3, h4, List.length_flatten, h1, codePointsSize]
  simp only [appendUint16LE, List.length_append, List.length_cons, List.length_nil]
  omega

theorem conditions_size {x : Bytes} (h : b.conditionsSection = .ok x) :
    x.length = 1 + 2 * b.conditions.length + total List.length b.conditions := by
  simp only [conditionsSection, ite_panic, Res.bind_eq_ok, Res.pure_eq, Res.ok.injEq] at h
  obtain ⟨_, _, _, rfl⟩ := h
  simp only [List.length_append, List.length_cons, List.length_nil, ends16_length, List.length_flatten, List.length_map, total]

theorem utf8Sets_size {x : Bytes} (h : b.utf8SetsSection = .ok x) : x.length = 1 := by
  simp only [utf8SetsSection, ite_panic, Res.ok.injEq] at h
  obtain ⟨_, rfl⟩ := h
  rfl

theorem setBytes_size {s : GlyphSet} {x : Bytes} (h : b.setBytes s = .ok x) : x.length = setCost s := by
  simp only [setBytes, ite_panic, Res.bind_eq_ok, Res.pure_eq, Res.ok.injEq] at h
  obtain ⟨_, _, rs, hr, ls, hl, rfl⟩ := h
  have h1 : rs.flatten.length = 3 * s.ranges.length := by
    rw [List.length_flatten, (mapRes_total hr).1]
    have : ∀ r ∈ s.ranges, encodedLen (b.rangeBytes r) = 3 := fun r hr' => by
      obtain ⟨y, hy⟩ := mapRes_mem hr r hr'
      rw [hy, encodedLen]
      rw [rangeBytes] at hy
      simp only [Res.bind_eq_ok] at hy
      obtain ⟨i, _, hy⟩ := hy
      split at hy
      · rw [Res.pure_eq, Res.ok.injEq] at hy; subst hy; rfl
      · simp only [Res.bind_eq_ok, ite_err, Res.pure_eq, Res.ok.injEq] at hy
        obtain ⟨_, _, _, _, rfl⟩ := hy
        rfl
    rw [total_eq this, total]
    simp; omega
  have h2 : ls.flatten.length = 2 * s.list.length := by
    rw [List.length_flatten, (mapRes_total hl).1]
    have : ∀ u ∈ s.list, encodedLen (b.glyphIndexE u >>= fun i => Res.ok (appendUint16LE [] i)) = 2 := fun u hu => by
      obtain ⟨y, hy⟩ := mapRes_mem hl u hu
      rw [hy, encodedLen]
      simp only [Res.bind_eq_ok, Res.pure_eq, Res.ok.injEq] at hy
      obtain ⟨_, _, rfl⟩ := hy
      rfl
    rw [total_eq this, total]
    simp; omega
  simp only [List.length_append, List.length_cons, List.length_nil, h1, h2, setCost]
  omega

theorem glyphSets_size (hc : Calls b) {x : Bytes} (h : b.glyphSetsSection = .ok x) :
    x.length = 1 + 2 * b.glyphSets.length + total (fun s => setCost s.2) b.glyphSets := by
  simp only [glyphSetsSection, ite_panic, Res.bind_eq_ok, Res.pure_eq, Res.ok.injEq] at h
  obtain ⟨_, h1, _, h2, bl, hb, rfl⟩ := h
  have h1 := Classical.not_not.1 h1
  have hs := sets_sum hc h1
  have hl := (checkSets_ok h2)
  obtain ⟨h3, h4⟩ := mapRes_total hb
  have h5 : total (fun s => encodedLen (b.setBytes s)) b.setsInOrder = (b.setsInOrder.map setSize).sum := by
    refine congrArg List.sum (List.map_congr_left fun s hs' => ?_)
    obtain ⟨y, hy⟩ := mapRes_mem hb s hs'
    rw [hy, encodedLen, setBytes_size hy, setCost_eq]
  have h6 : b.setsInOrder.length = b.glyphSets.length := by
    have := ((order_perm hc h1).symm.filterMap fun u => b.glyphSets.get u).length_eq
    rw [setsInOrder, this]
    have h2 : b.glyphSets.keys.filterMap (fun u => b.glyphSets.get u) = b.glyphSets.map Prod.snd := by
      rw [GoMap.keys, List.filterMap_map, ← List.filterMap_eq_map]
      exact List.filterMap_congr fun e he => GoMap.get_of_mem hc.setKeys he
    rw [h2, List.length_map]
  rw [List.length_append, List.length_append, ends16_length, List.length_map, List.length_flatten, h3, h5, hs, h6]
  rfl

theorem rulesLoop_size {rule : Rule → Res Bytes} : ∀ {l : List Rule} {off : Nat} {xs : List Bytes},
    rulesLoop rule off l = .ok xs → (xs.map List.length).sum = total (fun r => encodedLen (rule r)) l ∧
      xs.length = l.length ∧ (off ≤ 16777215 → off + total (fun r => encodedLen (rule r)) l ≤ 16777215)
  | [], off, xs, h => by
    simp only [rulesLoop, Res.ok.injEq] at h; subst h
    exact ⟨rfl, rfl, fun h => by simpa [total] using h⟩
  | r :: l, off, xs, h => by
    simp only [rulesLoop, Res.bind_eq_ok, ite_err, Res.pure_eq, Res.ok.injEq] at h
    obtain ⟨y, hy, h0, z, hz, rfl⟩ := h
    obtain ⟨h1, h2, h3⟩ := rulesLoop_size hz
    have h3 := h3 (by omega)
    simp only [total, List.map_cons, List.sum_cons, hy, encodedLen, List.length_cons, h2, true_and] at h1 h3 ⊢
    exact ⟨by rw [h1], fun _ => by omega⟩

theorem rules_size {rule : Rule → Res Bytes} {l : List Rule} {x : Bytes} (h : rulesSection rule l = .ok x) :
    x.length = 2 + 3 * l.length + total (fun r => encodedLen (rule r)) l ∧
      total (fun r => encodedLen (rule r)) l ≤ 16777215 := by
  simp only [rulesSection, ite_panic, Res.bind_eq_ok, Res.pure_eq, Res.ok.injEq] at h
  obtain ⟨_, bl, hb, rfl⟩ := h
  obtain ⟨h1, h2, h3⟩ := rulesLoop_size hb
  have h3 := h3 (by omega)
  refine ⟨?_, by omega⟩
  simp only [List.length_append, ends24_length, List.length_map, h2, List.length_flatten, h1]
  simp only [appendUint16LE, List.length_append, List.length_cons, List.length_nil]

theorem kern_size {pairs values : GoMap (Nat × Nat) KernPair} {x : Bytes} (h : b.kernSection pairs values = .ok x) :
    x.length = 3 + 5 * pairs.length := by
  simp only [kernSection, Res.bind_eq_ok, ite_panic, Res.pure_eq, Res.ok.injEq] at h
  obtain ⟨ks, hk, _, vs, hv, rfl⟩ := h
  have h1 := mapRes_len hk
  have h2 := mapRes_len hv
  have h3 := (isort_perm natLe ks).length_eq
  have h4 : pairs.keys.length = pairs.length := by simp [GoMap.keys]
  have h5 : total (fun k : Nat => (appendUint32LE [] k).length) (isort natLe ks) = 4 * pairs.length := by
    rw [← h4, ← h1, ← h3, total]
    induction isort natLe ks with
    | nil => rfl
    | cons c l ih => rw [List.map_cons, List.sum_cons, ih, List.length_cons]; simp only [appendUint32LE, List.length_append, List.length_cons, List.length_nil]; omega
  simp only [List.length_append, flatten_total, h5, h2, h3, h1, h4]
  simp only [appendUint24LE, List.length_append, List.length_cons, List.length_nil]
  omega

/-! ## The whole -/

theorem withMain_eq {b' : Builder} (h : (if b.dyes.length + b.palettes.length = 0 then
    b.addDye (ascii "main") [255] else .ok b) = .ok b') : b' = withMain b := by
  rw [withMain]
  by_cases h0 : b.dyes.length + b.palettes.length = 0
  · have hd : b.dyes = [] := List.eq_nil_of_length_eq_zero (by omega)
    have hp : b.palettes = [] := List.eq_nil_of_length_eq_zero (by omega)
    have e : b.addDye (ascii "main") [255] = .ok { b with dyes := [⟨ascii "main", [255]⟩] } := by
      simp [addDye, checkColorName, colorCount, hd, hp]
    rw [if_pos h0, e] at h
    rw [if_pos h0, Res.ok.inj h]
  · rw [if_neg h0] at h
    rw [if_neg h0, Res.ok.inj h]

attribute [local irreducible] total encodedLen

theorem build_size (hr : Reachable b) {env : Env} (hf : Fair env) {b' : Builder} {f : FontModel.Font}
    (h : build env b = .ok (b', f)) : b' = withMain b ∧ f.data.length = fontSize env b' ∧ FitsData env b' := by
  obtain ⟨s, w, bi, hb⟩ := build_parts h
  obtain ⟨hr', l, hl⟩ := main_reachable hr hb.main
  have hh := header_size hb.header
  have e1 : b.fontName = b'.fontName := by rw [hl]
  have e2 : b.fontFamily = b'.fontFamily := by rw [hl]
  have e3 : b.fontAuthor = b'.fontAuthor := by rw [hl]
  have e4 : b.fontAbout = b'.fontAbout := by rw [hl]
  rw [e1, e2, e3, e4] at hh
  have hw : wordsSize env b' = s.words.length := by rw [wordsSize, hb.wordMap, words_size hf hb.wordBytes]
  obtain ⟨u1, u2⟩ := rules_size hb.utf8Rules
  obtain ⟨g1, g2⟩ := rules_size hb.glyphRules
  have hsize : f.data.length = fontSize env b' := by
    have e5 : total (fun r => encodedLen (ruleBytes noGroup runeElem r)) b'.utf8Rules = total utf8RuleSize b'.utf8Rules := rfl
    have e6 : total (fun r => encodedLen (ruleBytes b'.groupRef b'.glyphElem r)) b'.glyphRules = total (glyphRuleSize b') b'.glyphRules := rfl
    have k0 : s.metrics.length = 15 := by rw [hb.metrics]; exact metrics_size
    have k1 := dyes_size hb.dyes; have k2 := palettes_size hb.palettes; have k3 := glyphNames_size hb.glyphNames
    have k4 := masks_size hb.glyphMasks; have k6 := settingNames_size hb.settingNames
    have k7 := settingDefs_size hb.settingDefs; have k8 := switches_size hb.switches
    have k9 := mapping_size hr'.inv.mapping.keys hb.mapping; have k10 := conditions_size hb.conditions
    have k11 := utf8Sets_size hb.utf8Sets; have k12 := glyphSets_size hr'.calls hb.glyphSets
    have k15 := kern_size hb.horzKern; have k16 := kern_size hb.vertKern
    have hd : f.data = s.list.flatten := by rw [hb.font]; rfl
    rw [hd]
    simp only [Parts.list, List.flatten_cons, List.flatten_nil, List.append_nil, List.length_append]
    rw [fontSize, frontSize, glyphsSize, settingsSize, rewritesSize]
    rw [e5] at u1
    rw [e6] at g1
    rw [hh, k0, k1, k2, k3, k4, ← hw, k6, k7, k8, k9, k10, k11, k12, u1, g1, k15, k16]
    generalize total (·.alphas.length) b'.dyes = t1, total (·.name.length) b'.dyes = t2, total (·.colors.length) b'.palettes = t3,
      total (·.name.length) b'.palettes = t4, total (nameSize b') b'.glyphOrder = t5,
      total (fun u => encodedLen (b'.glyphBlock env u)) b'.glyphOrder = t6, total (·.name.length) b'.settings = t7,
      total (·.options.length) b'.settings = t8, total List.length b'.switches = t9, total List.length b'.conditions = t10,
      total (fun s => setCost s.2) b'.glyphSets = t11, total utf8RuleSize b'.utf8Rules = t12,
      total (glyphRuleSize b') b'.glyphRules = t13, wordsSize env b' = t14, codePointsSize b' = t15
    clear hb u1 g1 hl hh k0 k1 k2 k3 k4 k6 k7 k8 k9 k10 k11 k12 k15 k16 hw u2 g2 e5 e6 h hd hr hr' e1 e2 e3 e4
    omega
  refine ⟨withMain_eq hb.main, hsize, u2, g2, ?_⟩
  rw [← hsize, hb.font]
  exact hb.size

theorem casesBytes_fits : ∀ (gs : List MapGroup) (len : Nat),
    len + total (fun g => encodedLen (b.groupBytes g)) gs ≤ FontModel.maxFontDataSize → Errs P (b.casesBytes len gs)
  | [], _, _ => Errs.ok _
  | g :: gs, len, h => by
    rw [casesBytes]
    refine (groupBytes_errs g).bind fun x hx => ?_
    simp only [total_cons, hx, encodedLen_ok] at h
    rw [if_neg (by omega)]
    exact (casesBytes_fits gs _ (by omega)).bind fun _ _ => Errs.ok _

theorem entryBytes_fits (len : Nat) (e : MapEntry) (h : len + entrySize b e ≤ FontModel.maxFontDataSize) :
    Errs P (b.entryBytes len e) := by
  rw [entryBytes]
  split
  · split
    · split
      · exact (glyphIndexP_errs _).bind fun _ _ => Errs.ok _
      · exact Errs.panic _
    · exact Errs.panic _
  · rename_i h1
    rw [entrySize, if_neg h1] at h
    split
    · split
      · exact Errs.ite (fun _ => Errs.panic _) fun _ => (groupBytes_errs _).bind fun _ _ => Errs.ok _
      · exact Errs.panic _
    · exact (casesBytes_fits _ _ (by omega)).bind fun _ _ => Errs.ok _

theorem entriesLoop_fits : ∀ (cs : List Int) (len : Nat),
    len + total b.keySize cs ≤ FontModel.maxFontDataSize → Errs P (b.entriesLoop len cs)
  | [], _, _ => Errs.ok _
  | c :: cs, len, h => by
    rw [entriesLoop]
    split
    · exact Errs.panic _
    · rename_i e he
      have he' : b.keySize c = entrySize b e := by rw [keySize, he]
      rw [total_cons, he'] at h
      refine (computeNumSwitchCases_errs _).bind fun n _ => Errs.ite (fun _ => Errs.panic _) fun _ => ?_
      refine (entryBytes_fits _ _ (by omega)).bind fun x hx => (entriesLoop_fits cs _ ?_).bind fun _ _ => Errs.ok _
      rw [entryBytes_size hx]
      omega

theorem mapping_fits (hk : b.runeMapping.keys.Nodup) {len : Nat} (h : len + codePointsSize b ≤ FontModel.maxFontDataSize) :
    Errs P (b.mappingSection len) := by
  rw [mappingSection]
  refine Errs.ite (fun _ => Errs.panic _) fun _ => Errs.ite (fun _ => Errs.panic _) fun _ => ?_
  refine (entriesLoop_fits _ _ ?_).bind fun _ _ => Errs.ok _
  rw [keys_total hk (isort_perm _ _)]
  rw [codePointsSize] at h
  omega

theorem rulesLoop_fits {rule : Rule → Res Bytes} : ∀ {l : List Rule} {off : Nat}, (∀ r ∈ l, Errs P (rule r)) →
    off + total (fun r => encodedLen (rule r)) l ≤ 16777215 → Errs P (rulesLoop rule off l)
  | [], _, _, _ => Errs.ok _
  | r :: l, off, h, hs => by
    rw [rulesLoop]
    refine (h r (by simp)).bind fun x hx => ?_
    simp only [total_cons, hx, encodedLen_ok] at hs
    rw [if_neg (by omega)]
    exact (rulesLoop_fits (fun x hx => h x (by simp [hx])) (by omega)).bind fun _ _ => Errs.ok _

theorem rules_fits {rule : Rule → Res Bytes} {l : List Rule} (h : ∀ r ∈ l, Errs P (rule r))
    (hs : total (fun r => encodedLen (rule r)) l ≤ 16777215) : Errs P (rulesSection rule l) := by
  rw [rulesSection]
  exact Errs.ite (fun _ => Errs.panic _) fun _ => (rulesLoop_fits h (by omega)).bind fun _ _ => Errs.ok _

theorem utf8Rule_errs (h : Refs b) : ∀ r ∈ b.utf8Rules, Errs P (ruleBytes noGroup runeElem r) := fun r hr =>
  ruleBytes_errs (fun u hu => by rw [h.utf8 r hr] at hu; cases hu) (fun _ _ => Errs.ok _) (fun _ _ => Errs.ok _)

theorem glyphRule_errs (h : Refs b) (hn : b.glyphOrder.Nodup) (hl : b.glyphOrder.length ≤ 65536)
    (hs : b.glyphSetsOrder.Nodup) (hsl : b.glyphSetsOrder.length ≤ 65536) :
    ∀ r ∈ b.glyphRules, Errs P (ruleBytes b.groupRef b.glyphElem r) := by
  have he : ∀ u ∈ b.glyphOrder, Errs P (b.glyphElem u) := fun u hu => by
    rw [glyphElem, glyphIndexE_exists hn hl hu]; exact Errs.ok _
  refine fun r hr => ruleBytes_errs (fun u hu => ?_) (fun u hu => he u (h.elems r hr u hu))
    (fun u hu => he u (h.outputs r hr u hu))
  have := (setIndex_iff hs hsl).2 (getElem?_idxOf' (h.groups r hr u hu))
  rw [groupRef, this]
  exact Errs.ok _

/-- The masks of fonts that are built have been encoded. -/
theorem masks_needs (h : Inv b) {env : Env} {x : Bytes} (hx : b.glyphMasksSection env = .ok x) (u : Nat) (g : GlyphData)
    (hg : b.glyphData.get u = some g) : Encodes env g.mask := by
  have hu : u ∈ b.glyphOrder := h.sync ▸ GoMap.mem_keys_of_get hg
  obtain ⟨r, hr, _⟩ := Res.bind_eq_ok.1 hx
  obtain ⟨y, hy⟩ := mapRes_mem hr u hu
  obtain ⟨g', h1, h2⟩ := Res.bind_eq_ok.1 hy
  obtain ⟨g'', h3, h4⟩ := glyph_exists h hu
  obtain rfl : g = g'' := by rw [hg] at h4; exact Option.some.inj h4
  obtain rfl : g = g' := by rw [h3] at h1; exact Res.ok.inj h1
  rw [Mask.appendRasterOps_data] at h2
  obtain ⟨z, hz, _⟩ := Res.bind_eq_ok.1 h2
  exact ⟨z, hz⟩

theorem build_encodes (hr : Reachable b) {env : Env} {r : Builder × FontModel.Font} (h : build env b = .ok r) (u : Nat)
    (g : GlyphData) (hg : b.glyphData.get u = some g) : Encodes env g.mask := by
  obtain ⟨b', f⟩ := r
  obtain ⟨s, w, bi, hb⟩ := build_parts h
  obtain ⟨hr', l, hl⟩ := main_reachable hr hb.main
  exact masks_needs hr'.inv hb.glyphMasks u g (by rw [hl]; exact hg)

/-- Well made builders whose data fits lead to no error. -/
theorem build_fits (hr : Reachable b) (hw : WellMade b) {env : Env}
    (hm : ∀ u g, b.glyphData.get u = some g → Encodes env g.mask) (hf : Fair env)
    (hz : ∃ k, 0 < k ∧ k < 256 ∧ env.predef k = env.predef 0) (hs : FitsData env (withMain b)) : Errs P (build env b) := by
  have hlen := order_length hr
  have hg : b.glyphOrder.length ≠ 0 := fun e => hw.glyphs (List.eq_nil_of_length_eq_zero e)
  unfold build
  refine Errs.ite (fun _ => Errs.panic _) fun _ => Errs.ite (fun _ => Errs.panic _) fun _ => ?_
  rw [if_neg (by omega)]
  refine (Errs.of (header_exists hr.calls)).bind fun header hhd => ?_
  refine (Errs.of ⟨_, metrics_iff.2 ⟨hw.ascent, hw.extraAscent, hw.uppercase, hw.midline⟩⟩).bind fun _ _ => ?_
  refine Errs.ite (fun _ => Errs.panic _) fun _ => ?_
  obtain ⟨b1, h1, _⟩ := main_exists (b := b)
  rw [h1, Res.ok_bind]
  rw [← withMain_eq h1] at hs
  obtain ⟨hr', l, rfl⟩ := main_reachable hr h1
  have hw' := wellMade_dyes (l := l).2 hw
  have hhd := header_size hhd
  have hhd : header.length = 33 + ({ b with dyes := l } : Builder).fontName.length + ({ b with dyes := l } : Builder).fontFamily.length +
    ({ b with dyes := l } : Builder).fontAuthor.length + ({ b with dyes := l } : Builder).fontAbout.length := hhd
  generalize hb1 : ({ b with dyes := l } : Builder) = b1 at *
  have hm' : ∀ u g, b1.glyphData.get u = some g → Encodes env g.mask := by rw [← hb1]; exact hm
  clear hm hw hr h1 hlen hg hb1
  have hi := hr'.inv
  have hc := hr'.calls
  have hrf := hr'.refs
  have hl := order_le hr'
  have hall := hs.all
  have hmax : FontModel.maxFontDataSize = 33554432 := rfl
  rw [fontSize, frontSize, glyphsSize, settingsSize, rewritesSize] at hall
  simp only
  refine (Errs.of (dyes_exists hi.colors)).bind fun _ k1 => ?_
  refine (Errs.of (palettes_exists hi.colors)).bind fun _ k2 => ?_
  refine (Errs.of (glyphNames_exists hi hw'.names)).bind fun _ k3 => ?_
  refine (Errs.of (masks_exists hi hm')).bind fun _ k4 => ?_
  refine (Errs.of (settingWords_exists hf hz hw'.words)).bind fun w hw => ?_
  obtain ⟨words, builtin⟩ := w
  obtain ⟨⟨cust, hst, _⟩, hbu⟩ := settingWords_spec hf hz hw
  simp only
  have hws : wordsSize env b1 = 1 + 2 * words.length + total List.length words.keys := by rw [wordsSize, hw]
  refine (Errs.of (words_exists hst)).bind fun _ k5 => ?_
  refine (Errs.of (settingNames_exists hi.settings)).bind fun _ k6 => ?_
  refine (Errs.of (settingDefs_exists hst hbu)).bind fun _ k7 => ?_
  refine (Errs.of (switches_exists hc hi.settings)).bind fun _ k8 => ?_
  have k1 := dyes_size k1; have k2 := palettes_size k2; have k3 := glyphNames_size k3; have k4 := masks_size k4
  have k5 := words_size hf k5; have k6 := settingNames_size k6; have k7 := settingDefs_size k7
  have k8 := switches_size k8
  refine (mapping_fits hi.mapping.keys ?_).bind fun _ k9 => ?_
  · simp only [List.length_append, metrics_size]
    omega
  have k9 := mapping_size hi.mapping.keys k9
  refine (Errs.of (conditions_exists hi.conditions)).bind fun _ k10 => ?_
  refine (Errs.of (utf8Sets_exists hc.runeSets)).bind fun _ k11 => ?_
  refine (glyphSets_errs hc hrf hi.kern.order hl hw'.setSizes hw'.ranges).bind fun _ hgs => ?_
  have k10 := conditions_size k10; have k11 := utf8Sets_size k11; have k12 := glyphSets_size hc hgs
  have hso := order_perm hc (sets_needs hc hgs).1
  have hsl := hso.length_eq
  have := hc.sets
  simp only [GoMap.keys, List.length_map] at hsl
  refine (rules_fits (utf8Rule_errs hrf) hs.utf8).bind fun _ k13 => ?_
  refine (rules_fits (glyphRule_errs hrf hi.kern.order hl (hso.nodup_iff.1 hc.setKeys) (by omega)) hs.glyph).bind fun _ k14 => ?_
  have k13 := (rules_size k13).1; have k14 := (rules_size k14).1
  refine Errs.ite (fun _ => Errs.panic _) fun _ => Errs.ite (fun _ => Errs.panic _) fun _ => ?_
  refine (kern_errs _ _).bind fun _ k15 => (kern_errs _ _).bind fun _ k16 => ?_
  have k15 := kern_size k15; have k16 := kern_size k16
  rw [if_neg]
  · exact Errs.ok _
  · have e1 : total (fun r => encodedLen (ruleBytes noGroup runeElem r)) b1.utf8Rules = total utf8RuleSize b1.utf8Rules := rfl
    have e2 : total (fun r => encodedLen (ruleBytes b1.groupRef b1.glyphElem r)) b1.glyphRules = total (glyphRuleSize b1) b1.glyphRules := rfl
    simp only [List.length_append, metrics_size]
    omega

end Builder
end BuilderModel
