import Verif.Lemmas.Groups
import Verif.Lemmas.MixedRadix

/-! # Evaluation of mapping switches -/

namespace FontModel.Font
open Go Spec BuilderModel

theorem switchLoop_eq {f : Font} {settings ks : List Nat} {base s : Nat} {radix : Nat → Nat}
    (hks : ∀ i (hi : i < ks.length), rd8 f.data (base + s + i) = .ok ks[i])
    (hset : ∀ k ∈ ks, k < settings.length)
    (hopt : ∀ k ∈ ks, f.getNumOptions k = .ok (radix k)) : ∀ (n c r : Nat), n < ks.length →
    f.switchLoop settings base n (s + n) c r =
      .ok ((r + c * mixedRadix ((ks.take (n + 1)).map fun k => (radix k, settings.getD k 0))) % 256) := by
  intro n
  induction n with
  | zero =>
    intro c r hn
    have hm := List.getElem_mem hn
    have hget : ks.take 1 = [ks[0]] := by
      rw [List.take_one, List.head?_eq_getElem?, List.getElem?_eq_getElem hn]; rfl
    have e := hks 0 hn
    simp only [Nat.add_zero] at e
    rw [switchLoop, Nat.add_zero, e, Res.ok_bind, idx_lt (hset _ hm), Res.ok_bind, Res.pure_eq,
      Nat.zero_add, hget]
    have hv : settings.getD ks[0] 0 = settings[ks[0]]'(hset _ hm) := by
      simp [List.getD_eq_getElem?_getD, List.getElem?_eq_getElem (hset _ hm)]
    simp only [List.map_cons, List.map_nil, mixedRadix, List.foldl_cons, List.foldl_nil, hv]
    simp only [u8, Nat.zero_mul, Nat.zero_add, Nat.add_mod_mod]
    rw [Nat.mul_comm]
  | succ n ih =>
    intro c r hn
    have hm := List.getElem_mem hn
    have hget : ks.take (n + 1 + 1) = ks.take (n + 1) ++ [ks[n + 1]] := by
      rw [List.take_add_one (i := n + 1), List.getElem?_eq_getElem hn]; rfl
    have e := hks (n + 1) hn
    rw [switchLoop, ← Nat.add_assoc base, e, Res.ok_bind, idx_lt (hset _ hm), Res.ok_bind,
      hopt _ hm, Res.ok_bind, show s + (n + 1) - 1 = s + n by omega, ih _ _ (by omega), hget]
    have hv : settings.getD ks[n + 1] 0 = settings[ks[n + 1]]'(hset _ hm) := by
      simp [List.getD_eq_getElem?_getD, List.getElem?_eq_getElem (hset _ hm)]
    rw [List.map_append, List.map_cons, List.map_nil, mixedRadix_snoc]
    simp only [hv]
    generalize mixedRadix _ = M
    generalize settings[ks[n + 1]]'(hset _ hm) = v
    generalize radix ks[n + 1] = o
    simp only [u8]
    congr 1
    have e1 : r + c * (M * o + v) = (r + v * c) + c * o * M := by
      rw [Nat.mul_add, Nat.mul_comm v c, Nat.mul_assoc c o M, Nat.mul_comm o M]; omega
    rw [e1, Nat.add_mod_mod, Nat.mod_add_mod, Nat.add_mod, Nat.mod_mul_mod, ← Nat.add_mod]

/-- The value of a switch is the mixed radix number of the settings, in 8 bits. -/
theorem evaluateSwitch_eq {f : Font} {settings ks : List Nat} {key : Nat} {radix : Nat → Nat}
    (hkey : key < nSwitches f.data f) (hne : ks ≠ [])
    (hb : f.offSwitches + 1 + 2 * nSwitches f.data f ≤ f.data.length)
    (hlen : end16 f.data (f.offSwitches + 1) key = start16 f.data (f.offSwitches + 1) key + ks.length)
    (hks : ∀ i (hi : i < ks.length), rd8 f.data (f.offSwitches + 1 + 2 * nSwitches f.data f +
      start16 f.data (f.offSwitches + 1) key + i) = .ok ks[i])
    (hset : ∀ k ∈ ks, k < settings.length)
    (hopt : ∀ k ∈ ks, f.getNumOptions k = .ok (radix k)) :
    f.evaluateSwitch key settings =
      .ok (mixedRadix (ks.map fun k => (radix k, settings.getD k 0)) % 256) := by
  have hpos : 0 < ks.length := List.length_pos_iff.2 hne
  rw [evaluateSwitch, numSwitchTypes, rd8_eq (by omega), Res.ok_bind]
  have e : byteAt f.data f.offSwitches = nSwitches f.data f := rfl
  rw [e, if_neg (by omega)]
  simp only [shl1]
  rw [rd16_eq (by omega), Res.ok_bind]
  have es : (if key > 0 then rd16 f.data (f.offSwitches + 1 + 2 * key - 2) else Res.ok 0) =
      .ok (start16 f.data (f.offSwitches + 1) key) := by
    split
    · rename_i h0
      rw [rd16_eq (by omega), start16_succ _ _ _ h0, end16]
      congr 2; omega
    · have : key = 0 := by omega
      subst this; rfl
  rw [es, Res.ok_bind]
  have ee : u16At f.data (f.offSwitches + 1 + 2 * key) = end16 f.data (f.offSwitches + 1) key := rfl
  rw [ee, if_neg (by omega)]
  have := switchLoop_eq (f := f) (settings := settings) (ks := ks) hks hset hopt (ks.length - 1) 1 0
    (by omega)
  rw [hlen, show start16 f.data (f.offSwitches + 1) key + ks.length - 1 -
    start16 f.data (f.offSwitches + 1) key = ks.length - 1 by omega,
    show start16 f.data (f.offSwitches + 1) key + ks.length - 1 =
    start16 f.data (f.offSwitches + 1) key + (ks.length - 1) by omega, this]
  rw [show ks.length - 1 + 1 = ks.length by omega, List.take_length, Nat.zero_add, Nat.one_mul]

end FontModel.Font

namespace BuilderModel
open Go Helpers Spec FontModel

variable {env : Env} {b b' : Builder} {f : Font} {s : Parts} {w bi : GoMap Bytes Int}

theorem numSettings_built (h : Built env b b' f s w bi) :
    f.numSettings = .ok b.settings.length ∧ b.settings.length ≤ 255 ∧
    nSettings f.data f = b.settings.length := by
  have ha := h.atSettingNames
  have hs := h.settingNames
  have e1 : b'.settings = b.settings := by rw [h.b'_eq]
  simp only [Builder.settingNamesSection, ite_panic, Res.ok.injEq, e1] at hs
  obtain ⟨h1, h2⟩ := hs
  rw [← h2] at ha
  have hb := ha.left.left
  refine ⟨?_, by omega, ?_⟩
  · rw [Font.numSettings, hb.rd8, byte_val]; congr 1; omega
  · rw [nSettings, hb.byte, byte_val]; omega

theorem settings_sum {b : Builder} (h : ∀ x ∈ b.settings, x.options.length ≤ 255)
    (hl : b.settings.length ≤ 255) : (b.settings.map fun x => x.options.length).sum ≤ 65025 := by
  have key : ∀ l : List Setting, (∀ x ∈ l, x.options.length ≤ 255) →
      (l.map fun x => x.options.length).sum ≤ 255 * l.length := by
    intro l
    induction l with
    | nil => simp
    | cons a l ih =>
      intro h
      have := ih (fun x hx => h x (by simp [hx]))
      have := h a (by simp)
      simp only [List.map_cons, List.sum_cons, List.length_cons]
      omega
  have := key _ h
  omega

/-- The number of options of the settings of a built font. -/
theorem numOptions_built (h : Built env b b' f s w bi)
    (ho : ∀ x ∈ b.settings, x.options.length ≤ 255) {k : Nat} (hk : k < b.settings.length)
    (hpos : b.settings[k].options ≠ []) :
    f.getNumOptions k = .ok b.settings[k].options.length ∧
    start16 f.data f.offSettingDefs k = psum (b.settings.map fun x => x.options.length) k ∧
    end16 f.data f.offSettingDefs k = psum (b.settings.map fun x => x.options.length) (k + 1) ∧
    f.settingBounds k = .ok (psum (b.settings.map fun x => x.options.length) k,
      psum (b.settings.map fun x => x.options.length) k + b.settings[k].options.length) := by
  obtain ⟨n1, n2, n3⟩ := numSettings_built h
  have ha := h.atSettingDefs
  have hs := h.settingDefs
  have e1 : b'.settings = b.settings := by rw [h.b'_eq]
  simp only [Builder.settingDefsSection, Res.bind_eq_ok, Res.pure_eq, Res.ok.injEq, e1] at hs
  obtain ⟨blocks, hbl, hx⟩ := hs
  rw [← hx] at ha
  have hsum := settings_sum ho n2
  have hb := bounds16 ha.left (by omega) (i := k) (by simpa using hk)
  have hlen := ha.left.len
  rw [ends16_length, List.length_map] at hlen
  have hsucc := psum_succ (l := b.settings.map fun x => x.options.length) (i := k) (by simpa using hk)
  rw [List.getElem_map] at hsucc
  have hlen0 : 0 < b.settings[k].options.length := List.length_pos_iff.2 hpos
  have hle := ho _ (List.getElem_mem hk)
  have hbd : f.settingBounds k = .ok (start16 f.data f.offSettingDefs k,
      end16 f.data f.offSettingDefs k) :=
    Font.settingBounds_eq (by omega) (by rw [hb.1, hb.2]; omega) (by rw [hb.1, hb.2]; omega)
  refine ⟨?_, hb.1, hb.2, ?_⟩
  · rw [Font.getNumOptions, n1, Res.ok_bind, if_neg (by omega), hbd, Res.ok_bind]
    simp only [Res.pure_eq, hb.1, hb.2, Res.ok.injEq]
    omega
  · rw [hbd, hb.1, hb.2, hsucc]

/-- The stored switches. -/
theorem switch_built (h : Built env b b' f s w bi) {k : Nat} (hk : k < b.switches.length) :
    nSwitches f.data f = b.switches.length ∧
    f.offSwitches + 1 + 2 * b.switches.length ≤ f.data.length ∧
    end16 f.data (f.offSwitches + 1) k =
      start16 f.data (f.offSwitches + 1) k + b.switches[k].length ∧
    ∀ i (hi : i < b.switches[k].length), rd8 f.data (f.offSwitches + 1 + 2 * b.switches.length +
      start16 f.data (f.offSwitches + 1) k + i) = .ok (b.switches[k][i] % 256) := by
  obtain ⟨_, n2, _⟩ := numSettings_built h
  have ha := h.atSwitches
  have hs := h.switches
  have e1 : b'.settings = b.settings := by rw [h.b'_eq]
  have e2 : b'.switches = b.switches := by rw [h.b'_eq]
  simp only [Builder.switchesSection, Res.bind_eq_ok, ite_panic, Res.pure_eq, Res.ok.injEq, e1, e2] at hs
  obtain ⟨h1, _, h2, hx⟩ := hs
  rw [← hx] at ha
  have hsz : ∀ l : List (List Nat), Builder.checkSwitchSizes (b.settings.length % 256) l = .ok () →
      (l.map List.length).sum ≤ 255 * l.length := by
    intro l
    induction l with
    | nil => simp
    | cons a l ih =>
      intro h
      simp only [Builder.checkSwitchSizes, ite_panic] at h
      have := ih h.2
      simp only [List.map_cons, List.sum_cons, List.length_cons]
      omega
  have hsum := hsz _ h2
  have hb := bounds16 ha.left.right (by omega) (i := k) (by simpa using hk)
  have hl1 : List.length [byte b.switches.length] = 1 := rfl
  rw [hl1] at hb
  have hsucc := psum_succ (l := b.switches.map List.length) (i := k) (by simpa using hk)
  rw [List.getElem_map] at hsucc
  have hlen := ha.left.len
  rw [List.length_append, ends16_length, List.length_map, hl1] at hlen
  refine ⟨?_, by omega, by rw [hb.1, hb.2, hsucc], ?_⟩
  · rw [nSwitches, ha.left.left.byte, byte_val]; omega
  · intro i hi
    have hblk := ha.right.block (i := k) (by simpa using hk)
    rw [List.length_append, ends16_length, List.length_map, hl1, List.getElem_map] at hblk
    have hmm : ((b.switches.map fun s => s.map byte).map List.length) = b.switches.map List.length := by
      rw [List.map_map]
      apply List.map_congr_left
      intro x _
      simp
    rw [hmm, ← hb.1] at hblk
    have hg := hblk.get (i := i) (by simpa using hi)
    rw [List.getElem_map, byte_val] at hg
    have hl := hblk.len
    rw [List.length_map] at hl
    rw [← Nat.add_assoc] at hg hl
    rw [rd8_eq (by omega), ← hg]

end BuilderModel
