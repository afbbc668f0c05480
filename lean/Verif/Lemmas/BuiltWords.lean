import Verif.Lemmas.Words
import Verif.Lemmas.Switch
import Verif.Lemmas.Colors

/-! # Settings of a built font -/

namespace BuilderModel
open Go Helpers Spec FontModel

attribute [local irreducible] Builder.builtinWords

variable {env : Env} {b b' : Builder} {f : Font} {s : Parts} {w bi : GoMap Bytes Int}

theorem sum_length_le {l : List Bytes} {n : Nat} (h : ∀ x ∈ l, x.length ≤ n) :
    (l.map List.length).sum ≤ n * l.length := by
  induction l with
  | nil => simp
  | cons a l ih =>
    have := ih (fun x hx => h x (by simp [hx]))
    have := h a (by simp)
    simp only [List.map_cons, List.sum_cons, List.length_cons, Nat.mul_succ]
    omega

/-- A words section. -/
def wordsBytes (L : List Bytes) : Bytes :=
  [byte L.length] ++ ends16 0 (L.map List.length) ++ L.flatten

/-- `GetWord` on a words section. -/
theorem getWord_at {predef : Nat → Bytes} {L : List Bytes} (h : At f.data f.offWords (wordsBytes L))
    (hl : L.length ≤ 255) (hw : ∀ x ∈ L, x ≠ [] ∧ x.length ≤ 32) (i : Nat) :
    f.getWord predef i = if hi : i < L.length then .ok L[i] else .ok (predef i) := by
  have hn : f.numWords = .ok L.length := by
    rw [Font.numWords, h.left.left.rd8, byte_val]; congr 1; omega
  have hsum := sum_length_le (fun x hx => (hw x hx).2)
  rw [Font.getWord, hn, Res.ok_bind]
  have h1 : At f.data (f.offWords + 1) (ends16 0 (L.map List.length)) := h.left.right
  have h2 : At f.data (f.offWords + 1 + 2 * L.length) L.flatten := by
    have := h.right
    rw [List.length_append, ends16_length, List.length_map] at this
    rw [Nat.add_assoc]; exact this
  split
  · rename_i hi
    have hb := bounds16 h1 (by omega) (i := i) (by simpa using hi)
    have hlen := h1.len
    rw [ends16_length, List.length_map] at hlen
    simp only [Font.shl1]
    rw [rd16_eq (by omega), Res.ok_bind]
    have es : (if i > 0 then rd16 f.data (f.offWords + 1 + 2 * i - 2) else Res.ok 0) =
        .ok (start16 f.data (f.offWords + 1) i) := by
      split
      · rename_i h0
        rw [rd16_eq (by omega), start16_succ _ _ _ h0, end16]
        congr 2; omega
      · have : i = 0 := by omega
        subst this; rfl
    have ee : u16At f.data (f.offWords + 1 + 2 * i) = end16 f.data (f.offWords + 1) i := rfl
    have hsucc := psum_succ (l := L.map List.length) (i := i) (by simpa using hi)
    rw [List.getElem_map] at hsucc
    have hpos : 0 < L[i].length := List.length_pos_iff.2 (hw _ (List.getElem_mem hi)).1
    have hblk := h2.block hi
    have hbl := hblk.len
    rw [es, Res.ok_bind, ee, if_neg (by rw [hb.1, hb.2]; omega), hb.1, hb.2, hsucc,
      unsafeString_eq (by omega) (by omega),
      show psum (L.map List.length) i + L[i].length - psum (L.map List.length) i = L[i].length by omega]
    exact congrArg Res.ok hblk.sub
  · rfl

/-- The words section of a built font, when both iterations go the same way. -/
theorem words_at (h : Built env b b' f s w bi) {L : List Bytes} (h1 : env.wordEndsOrder w.keys = L)
    (h2 : env.wordsOrder w.keys = L) (hp : L.Perm w.keys) : At f.data f.offWords (wordsBytes L) := by
  have ha := h.atWords
  have hs := h.wordBytes
  simp only [Builder.wordsSection, ite_panic] at hs
  obtain ⟨_, hs⟩ := hs
  have hl : L.length = w.length := by rw [hp.length_eq, GoMap.keys, List.length_map]
  split at hs
  · rename_i h0
    have : L = [] := List.eq_nil_of_length_eq_zero (by rw [hl, h0]; rfl)
    subst this
    simp only [Res.pure_eq, Res.ok.injEq] at hs
    rw [← hs] at ha
    simpa [wordsBytes, ends16, byte] using ha
  · simp only [Res.bind_eq_ok, Res.pure_eq, Res.ok.injEq] at hs
    obtain ⟨_, _, hs⟩ := hs
    rw [← hs, h1, h2, ← hl] at ha
    exact ha

theorem IsOption.congr {b c : Builder} (h : b.settings = c.settings) (x : Bytes) : IsOption b x ↔ IsOption c x := by
  rw [IsOption, IsOption, h]

theorem Builder.Stores.congr {predef : Nat → Bytes} {b c : Builder} (h : b.settings = c.settings)
    {cust : List Bytes} (st : Builder.Stores predef b w cust) : Builder.Stores predef c w cust where
  nodup := st.nodup
  perm := st.perm
  count := st.count
  index := st.index
  option x hx := (IsOption.congr h x).1 (st.option x hx)
  own x hx := st.own x ((IsOption.congr h x).2 hx)
  rest x hx := st.rest x ((IsOption.congr h x).2 hx)

/-- The byte of an option. -/
theorem optionByte_stores {predef : Nat → Bytes} {cust : List Bytes} (st : Builder.Stores predef b w cust)
    {x : Bytes} (hx : IsOption b x) {v : UInt8} (h : Builder.optionByte (Builder.builtinWords predef) w x = .ok v) :
    (∃ i, ∃ hi : i < cust.length, x = cust[i] ∧ v.toNat = i) ∨
    (x ∉ cust ∧ cust.length ≤ v.toNat ∧ predef v.toNat = x) := by
  simp only [Builder.optionByte, Res.bind_eq_ok, ite_panic, Res.pure_eq, Res.ok.injEq] at h
  obtain ⟨i, h1, h2, rfl⟩ := h
  by_cases hc : x ∈ cust
  · obtain ⟨j, hj, rfl⟩ := List.getElem_of_mem hc
    rw [st.index j hj] at h1
    simp only [Res.ok.injEq] at h1
    subst h1
    have := st.count
    refine .inl ⟨j, hj, rfl, ?_⟩
    rw [byte_val]; omega
  · obtain ⟨r1, i', r2, r3, r4, r5⟩ := st.rest x hx hc
    rw [r1] at h1
    simp only [r2, Res.ok.injEq] at h1
    subst h1
    have : (byte ((i' : Int) % 256).toNat).toNat = i' := by rw [byte_val]; omega
    exact .inr ⟨hc, by omega, by rw [this, r5]⟩

/-- Reading an option of a built font. -/
theorem option_built (h : Built env b b' f s w bi) (hs : SettingsOk b.settings) {cust : List Bytes}
    (st : Builder.Stores env.predef b w cust) (hbi : bi = Builder.builtinWords env.predef ∨ ∀ x, ¬ IsOption b x)
    {L : List Bytes} (h1 : env.wordEndsOrder w.keys = L) (h2 : env.wordsOrder w.keys = L) (hp : L.Perm w.keys)
    {k : Nat} (hk : k < b.settings.length) {j : Nat} (hj : j < b.settings[k].options.length) :
    (∃ i, ∃ hi : i < cust.length, ∃ hi' : i < L.length, b.settings[k].options[j] = cust[i] ∧
      f.getOptionName env.predef k j = .ok L[i]) ∨
    (b.settings[k].options[j] ∉ cust ∧ f.getOptionName env.predef k j = .ok b.settings[k].options[j]) := by
  have hopt : IsOption b b.settings[k].options[j] := ⟨_, List.getElem_mem hk, List.getElem_mem hj⟩
  have hbi' : bi = Builder.builtinWords env.predef := hbi.resolve_right fun hn => hn _ hopt
  subst hbi'
  have hne : b.settings[k].options ≠ [] := by intro h0; rw [h0] at hj; simp at hj
  obtain ⟨n1, n2, _⟩ := numSettings_built h
  obtain ⟨_, o2, o3, o4⟩ := numOptions_built h hs.options hk hne
  have hL : L.length = cust.length := (hp.trans st.perm).length_eq
  have hw := getWord_at (predef := env.predef) (words_at h h1 h2 hp) (by rw [hL]; exact st.count)
    (fun x hx => by
      obtain ⟨s', hs', hx'⟩ := st.option x ((hp.trans st.perm).mem_iff.1 hx)
      exact hs.option s' hs' x hx')
  have ha := h.atSettingDefs
  have hd := h.settingDefs
  have e1 : b'.settings = b.settings := by rw [h.b'_eq]
  simp only [Builder.settingDefsSection, Res.bind_eq_ok, Res.pure_eq, Res.ok.injEq, e1] at hd
  obtain ⟨blocks, hbl, hx⟩ := hd
  rw [← hx] at ha
  obtain ⟨m1, m2⟩ := mapRes_ok hbl
  have m3 : ∀ i (hi : i < b.settings.length) (hr : i < blocks.length), blocks[i].length = b.settings[i].options.length :=
    fun i hi hr => (mapRes_ok (m2 i hi hr)).1
  have hmm : blocks.map List.length = b.settings.map fun x => x.options.length := by
    apply List.ext_getElem
    · simp [m1]
    · intro i hi hi'
      simp only [List.getElem_map]
      exact m3 i (by simpa using hi') (by simpa using hi)
  have hblk := ha.right.block (i := k) (by omega)
  rw [ends16_length, List.length_map, hmm] at hblk
  have hkj := m3 k hk (by omega)
  have hjb : j < (blocks[k]'(by omega)).length := by omega
  have hbyte := hblk.get hjb
  have hlen := hblk.len
  have hv := (mapRes_ok (m2 k hk (by omega))).2 j hj hjb
  have hread : f.getOptionName env.predef k j = f.getWord env.predef ((blocks[k]'(by omega))[j]).toNat := by
    rw [Font.getOptionName, n1, Res.ok_bind, if_neg (by omega), o4, Res.ok_bind]
    simp only [Font.shl1]
    rw [if_neg (by omega), rd8_eq (by omega), Res.ok_bind, hbyte]
  rcases optionByte_stores st hopt hv with ⟨i, hi, hc, hvi⟩ | ⟨hc, hvi, hpv⟩
  · refine .inl ⟨i, hi, by omega, hc, ?_⟩
    rw [hread, hw, hvi, dif_pos (by omega)]
  · refine .inr ⟨hc, ?_⟩
    rw [hread, hw, dif_neg (by omega), hpv]

/-- The names of the settings. -/
theorem settingNames_built (h : Built env b b' f s w bi) (hs : SettingsOk b.settings) :
    f.eachSetting = .ok (b.settings.map fun x => x.name) := by
  obtain ⟨n1, n2, _⟩ := numSettings_built h
  have ha := h.atSettingNames
  have hd := h.settingNames
  have e1 : b'.settings = b.settings := by rw [h.b'_eq]
  simp only [Builder.settingNamesSection, ite_panic, Res.ok.injEq, e1] at hd
  rw [← hd.2] at ha
  have hmm : (b.settings.map fun x => x.name.length) = (b.settings.map fun x => x.name).map List.length := by
    rw [List.map_map]; rfl
  have hsum : ((b.settings.map fun x => x.name).map List.length).sum ≤ 32 * (b.settings.map fun x => x.name).length :=
    sum_length_le (fun x hx => by
      obtain ⟨s', hs', rfl⟩ := List.mem_map.1 hx
      exact (hs.name s' hs').2)
  rw [hmm] at ha
  rw [List.length_map] at hsum
  have h1 : At f.data (f.offSettingNames + 1) (ends16 0 ((b.settings.map fun x => x.name).map List.length)) :=
    ha.left.right
  have h2 : At f.data (f.offSettingNames + 1 + 2 * b.settings.length) (b.settings.map fun x => x.name).flatten := by
    have := ha.right
    rw [List.length_append, ends16_length, List.length_map, List.length_map] at this
    rw [Nat.add_assoc]; exact this
  have hb : ∀ j, j < b.settings.length →
      start16 f.data (f.offSettingNames + 1) j = psum ((b.settings.map fun x => x.name).map List.length) j ∧
      end16 f.data (f.offSettingNames + 1) j = psum ((b.settings.map fun x => x.name).map List.length) (j + 1) :=
    fun j hj => bounds16 h1 (by omega) (by simpa using hj)
  have hl1 := h1.len
  rw [ends16_length, List.length_map, List.length_map] at hl1
  have hl2 := h2.len
  rw [flatten_length] at hl2
  have hdef := h.atSettingDefs.len
  have hd2 := h.settingDefs
  simp only [Builder.settingDefsSection, Res.bind_eq_ok, Res.pure_eq, Res.ok.injEq, e1] at hd2
  obtain ⟨blocks, hbl, hx⟩ := hd2
  have hoff : f.offSettingDefs = f.offSettingNames + s.settingNames.length := by
    rw [h.font]
    show (s.pre 8).length = (s.pre 7).length + _
    simp [Parts.pre, Parts.list]; omega
  have hsl := congrArg List.length hx
  rw [List.length_append, ends16_length, List.length_map] at hsl
  have hnl := congrArg List.length hd.2
  rw [List.length_append, List.length_append, ends16_length, List.length_map, flatten_length, List.length_singleton] at hnl
  rw [Font.eachSetting, n1, Res.ok_bind]
  have := Font.eachSettingLoop_eq (D := f.data) (names := f.offSettingNames + 1 + b.settings.length * 2)
    (f.offSettingNames + 1) b.settings.length b.settings.length 0 (by omega)
    (fun j hj => by rw [(hb j hj).1, (hb j hj).2]; exact psum_le (by omega))
    (fun j hj => by omega)
    (fun j hj => by
      rw [(hb j hj).2]
      have := psum_le_sum ((b.settings.map fun x => x.name).map List.length) (j + 1)
      omega)
  rw [Nat.mul_zero, Nat.add_zero] at this
  rw [show (0 : Nat) = start16 f.data (f.offSettingNames + 1) 0 from rfl, this]
  congr 1
  apply List.ext_getElem
  · simp
  · intro i hi hi'
    have hib : i < b.settings.length := by simpa using hi'
    simp only [List.getElem_map, List.getElem_range', Nat.zero_add, Nat.one_mul]
    have hblk := h2.block (i := i) (by simpa using hib)
    have hsub := hblk.sub
    have hsucc := psum_succ (l := (b.settings.map fun x => x.name).map List.length) (i := i) (by simpa using hib)
    simp only [List.getElem_map] at hsub hsucc
    rw [(hb i hib).1, (hb i hib).2, hsucc, Nat.add_sub_cancel_left, Nat.mul_comm b.settings.length 2]
    exact hsub

/-- The same build with another order of the words. -/
theorem Built.reorder (h : Built env b b' f s w bi) (hf : Fair env) {o : List Bytes → List Bytes}
    (hp : (o w.keys).Perm w.keys) :
    ∃ f' s', Built (withOrder env o) b b' f' s' w bi := by
  have hlen : ∀ {l l' : List Bytes}, l.Perm l' → l.flatten.length = l'.flatten.length := by
    intro l l' hp
    rw [flatten_length, flatten_length, (hp.map List.length).sum_nat]
  obtain ⟨x, hx, hxl⟩ : ∃ x, Builder.wordsSection (withOrder env o) w = .ok x ∧ x.length = s.words.length := by
    have hs := h.wordBytes
    simp only [Builder.wordsSection, ite_panic] at hs
    obtain ⟨h1, hs⟩ := hs
    rw [Builder.wordsSection, if_neg h1]
    split at hs
    · rename_i h0
      rw [if_pos h0]
      exact ⟨_, hs, rfl⟩
    · rename_i h0
      rw [if_neg h0]
      simp only [Res.bind_eq_ok, Res.pure_eq, Res.ok.injEq] at hs
      obtain ⟨u, h2, hs⟩ := hs
      rw [h2, Res.ok_bind]
      refine ⟨_, rfl, ?_⟩
      have e1 : (env.wordEndsOrder w.keys).length = w.keys.length := (hf.ends _).length_eq
      have e2 : (o w.keys).length = w.keys.length := hp.length_eq
      have e3 := hlen (hf.words w.keys)
      have e4 := hlen hp
      rw [← hs]
      simp only [withOrder, List.length_append, ends16_length, List.length_map, e1, e2, e3, e4]
  have hpre : ∀ k, (({ s with words := x } : Parts).pre k).length = (s.pre k).length := by
    intro k
    rw [Parts.pre, Parts.pre, flatten_length, flatten_length, List.map_take, List.map_take]
    simp [Parts.list, hxl]
  have hall : (({ s with words := x } : Parts).list.flatten).length = s.list.flatten.length := by
    rw [flatten_length, flatten_length]
    simp [Parts.list, hxl]
  refine ⟨_, { s with words := x }, ⟨h.count, h.order, h.some, h.header, h.metricsOk, h.sections, h.main, h.metrics,
    h.dyes, h.palettes, h.glyphNames, h.glyphMasks, h.wordMap, hx, h.settingNames, h.settingDefs, h.switches, ?_,
    h.conditions, h.utf8Sets, h.glyphSets, h.utf8Rules, h.glyphRules, h.horzCount, h.vertCount, h.horzKern,
    h.vertKern, ?_, rfl⟩⟩
  · rw [hpre]; exact h.mapping
  · rw [hall]; exact h.size

/-- An order of iteration with a given result. -/
theorem exists_order {l L : List Bytes} (h : L.Perm l) :
    ∃ o : List Bytes → List Bytes, (∀ l, (o l).Perm l) ∧ o l = L := by
  refine ⟨fun x => if x = l then L else x, ?_, if_pos rfl⟩
  intro x
  simp only
  split
  · rename_i hx; rw [hx]; exact h
  · exact .refl _

/-- `GetNumOptions` for a setting without options. -/
theorem noOptions_built (h : Built env b b' f s w bi) (ho : ∀ x ∈ b.settings, x.options.length ≤ 255) {k : Nat}
    (hk : k < b.settings.length) (h0 : b.settings[k].options = []) :
    f.getNumOptions k = .panic "invalid font data" := by
  obtain ⟨n1, n2, n3⟩ := numSettings_built h
  have ha := h.atSettingDefs
  have hs := h.settingDefs
  have e1 : b'.settings = b.settings := by rw [h.b'_eq]
  simp only [Builder.settingDefsSection, Res.bind_eq_ok, Res.pure_eq, Res.ok.injEq, e1] at hs
  obtain ⟨blocks, hbl, hx⟩ := hs
  rw [← hx] at ha
  have hsum := settings_sum ho n2
  have hb := bounds16 ha.left (by omega) (i := k) (by simpa using hk)
  have hlen := ha.left.len
  rw [ends16_length, List.length_map] at hlen
  have hsucc := psum_succ (l := b.settings.map fun x => x.options.length) (i := k) (by simpa using hk)
  rw [List.getElem_map, h0, List.length_nil, Nat.add_zero] at hsucc
  rw [Font.getNumOptions, n1, Res.ok_bind, if_neg (by omega), Font.settingBounds]
  simp only [Font.shl1]
  rw [rd16_eq (by omega), Res.ok_bind]
  have es : (if k > 0 then rd16 f.data (f.offSettingDefs + 2 * k - 2) else Res.ok 0) =
      .ok (start16 f.data f.offSettingDefs k) := by
    split
    · rename_i h0
      rw [rd16_eq (by omega), start16_succ _ _ _ h0, end16]
      congr 2; omega
    · have : k = 0 := by omega
      subst this; rfl
  have ee : u16At f.data (f.offSettingDefs + 2 * k) = end16 f.data f.offSettingDefs k := rfl
  rw [es, Res.ok_bind, ee, hb.1, hb.2, hsucc, if_pos (by omega)]
  rfl

/-- What the words of a build are. -/
theorem words_built (h : Built env b b' f s w bi) (hf : Fair env)
    (hz : ∃ k, 0 < k ∧ k < 256 ∧ env.predef k = env.predef 0) :
    ∃ cust, Builder.Stores env.predef b w cust ∧
      ((∀ v w, IsOption b v → IsOption b w → ¬ Predefined env.predef v → ¬ Predefined env.predef w → v = w) →
        cust.length ≤ 1) ∧ (bi = Builder.builtinWords env.predef ∨ ∀ x, ¬ IsOption b x) := by
  have e1 : b'.settings = b.settings := by rw [h.b'_eq]
  obtain ⟨⟨cust, st, h1⟩, h2⟩ := Builder.settingWords_spec hf hz h.wordMap
  refine ⟨cust, st.congr e1, fun hone => h1 fun v x hv hx => hone v x ((IsOption.congr e1 v).1 hv)
    ((IsOption.congr e1 x).1 hx), ?_⟩
  rcases h2 with ⟨_, _, h2⟩ | h2
  · exact .inr fun x hx => h2 x ((IsOption.congr e1 x).2 hx)
  · exact .inl h2

/-- `AddSetting` keeps the tables in order. -/
theorem validateBasicName_length {n : Bytes} {u : Unit} (h : Names.validateBasicName n = .ok u) :
    n ≠ [] ∧ n.length ≤ 32 := by
  unfold Names.validateBasicName at h
  simp only [ite_err] at h
  refine ⟨?_, by omega⟩
  rintro rfl
  simp at h

theorem checkOptions_ok : ∀ {l : List Bytes} {u : Unit}, Builder.checkOptions l = .ok u →
    ∀ o ∈ l, o ≠ [] ∧ o.length ≤ 32
  | [], _, _ => by simp
  | o :: l, u, h => by
    simp only [Builder.checkOptions, Res.bind_eq_ok] at h
    obtain ⟨_, h1, h2⟩ := h
    intro x hx
    rcases List.mem_cons.1 hx with rfl | hx
    · exact validateBasicName_length h1
    · exact checkOptions_ok h2 x hx

theorem addSetting_ok {key : Nat} {name : Bytes} {options : List Bytes} (hs : SettingsOk b.settings)
    (h : b.addSetting name options = .ok (b', key)) :
    SettingsOk b'.settings ∧ b' = { b with settings := b.settings ++ [⟨name, options⟩] } ∧ key = b.settings.length := by
  simp only [Builder.addSetting, Res.bind_eq_ok, ite_err, Res.pure_eq, Res.ok.injEq, Prod.mk.injEq] at h
  obtain ⟨_, h1, _, h2, h3, h4, h5, rfl, rfl⟩ := h
  refine ⟨⟨?_, ?_, ?_, ?_⟩, rfl, rfl⟩
  · simp only [List.length_append, List.length_singleton]; omega
  all_goals
    intro x hx
    rcases List.mem_append.1 hx with hx | hx
    · first | exact hs.name x hx | exact hs.options x hx | exact hs.option x hx
    · rw [List.mem_singleton.1 hx]
      first | exact validateBasicName_length h1 | exact checkOptions_ok h2 | exact Nat.le_of_not_lt h3

end BuilderModel
