import Verif.Lemmas.At
import Verif.Lemmas.BuildParts
import Verif.Spec.Header
import Verif.Lemmas.Read

/-! # Header -/

namespace BuilderModel
open Go Helpers Spec FontModel

theorem le_length : ∀ k v, (le k v).length = k
  | 0, _ => rfl
  | k + 1, v => by simp [le, le_length]

theorem le_value : ∀ k v, leValue (le k v) = v % 256 ^ k
  | 0, v => by simp [le, leValue, Nat.mod_one]
  | k + 1, v => by
    rw [le, leValue, le_value k, Nat.pow_succ, Nat.mul_comm (256 ^ k), Nat.mod_mul]
    simp

theorem At.cast {D : Bytes} {o o' : Nat} {x : Bytes} (h : At D o x) (e : o = o') : At D o' x := e ▸ h

theorem At.le {D : Bytes} {o k v : Nat} (h : At D o (le k v)) :
    (D.drop o).take k = Spec.le k v := by
  have := h.sub
  rwa [le_length] at this

theorem At.le_fits {D : Bytes} {o k v : Nat} (h : At D o (Spec.le k v)) : o + k ≤ D.length := by
  have := h.len
  rwa [le_length] at this

theorem le_rd16 {D : Bytes} {o v : Nat} (h : At D o (le 2 v)) (hv : v < 65536) :
    FontModel.rd16 D o = .ok v := by
  have hl := h.le_fits
  rw [FontModel.rd16, sliceFrom, if_pos (by omega), Res.ok_bind,
    decodeUint16LE_eq (by rw [List.length_drop]; omega), h.le, le_value, Nat.mod_eq_of_lt hv]

theorem le_rd32 {D : Bytes} {o v : Nat} (h : At D o (le 4 v)) (hv : v < 4294967296) :
    FontModel.rd32 D o = .ok v := by
  have hl := h.le_fits
  rw [FontModel.rd32, sliceFrom, if_pos (by omega), Res.ok_bind,
    decodeUint32LE_eq (by rw [List.length_drop]; omega), h.le, le_value, Nat.mod_eq_of_lt hv]

theorem le_rd64 {D : Bytes} {o v : Nat} (h : At D o (le 8 v)) (hv : v < 18446744073709551616) :
    FontModel.rd64 D o = .ok v := by
  have hl := h.le_fits
  rw [FontModel.rd64, sliceFrom, if_pos (by omega), Res.ok_bind,
    decodeUint64LE_eq (by rw [List.length_drop]; omega), h.le, le_value, Nat.mod_eq_of_lt hv]

theorem le_rd8 {D : Bytes} {o v : Nat} (h : At D o (le 1 v)) (hv : v < 256) :
    FontModel.rd8 D o = .ok v := by
  rw [At.rd8 h, UInt8.toNat_ofNat']
  congr 1; omega

theorem le_date {D : Bytes} {o : Nat} {d : YMD} (h : At D o d.bytes) (hd : d.Fits) :
    FontModel.rdDate D o = .ok ⟨d.year, d.month, d.day⟩ := by
  obtain ⟨hy, hm, hdd⟩ := hd
  rw [YMD.bytes, At.append, At.append, List.length_append, le_length, le_length] at h
  obtain ⟨⟨h1, h2⟩, h3⟩ := h
  have hl := h3.le_fits
  have e1 := h1.le
  have e4 : D.drop o = le 2 d.year ++ D.drop (o + 2) := by
    rw [← e1, ← List.drop_drop, List.take_append_drop]
  have e5 : D.drop (o + 2) = UInt8.ofNat (d.month % 256) :: D.drop (o + 3) := by
    obtain ⟨_, t, ht⟩ := h2
    have := congrArg (List.drop 1) ht
    rw [List.drop_drop] at this
    rw [← ht, show o + 3 = o + 2 + 1 by omega, ← this]; rfl
  have e6 : D.drop (o + 3) = UInt8.ofNat (d.day % 256) :: D.drop (o + 4) := by
    obtain ⟨_, t, ht⟩ := h3
    have := congrArg (List.drop 1) ht
    rw [List.drop_drop] at this
    rw [show o + 3 = o + (2 + 1) by omega, ← ht, show o + 4 = o + (2 + 1) + 1 by omega, ← this]; rfl
  have hbe : D.drop o = [UInt8.ofNat (d.year % 256), UInt8.ofNat (d.year / 256 % 256),
      UInt8.ofNat (d.month % 256), UInt8.ofNat (d.day % 256)] ++ D.drop (o + 4) := by
    rw [e4, e5, e6]; rfl
  rw [FontModel.rdDate, sliceFrom, if_pos (by omega), Res.ok_bind, hbe]
  simp only [List.cons_append, List.nil_append, decodeDate, decodeUint16LE_cons, Res.ok_bind, Res.pure_eq,
    UInt8.toNat_ofNat', Res.ok.injEq, DateModel.Date.mk.injEq]
  omega

/-- Where the header fields are. -/
theorem header_at {D : Bytes} {h : Header} (hD : At D 0 h.bytes) :
    At D 0 (le 4 h.format) ∧ At D 4 (le 8 h.id) ∧ At D 12 (le 2 h.major) ∧ At D 14 (le 2 h.minor) ∧
    At D 16 h.first.bytes ∧ At D 20 h.majorDate.bytes ∧ At D 24 h.minorDate.bytes ∧
    At D 28 (le 1 h.name.length) ∧ At D 29 h.name ∧
    At D (29 + h.name.length) (le 1 h.family.length) ∧ At D (30 + h.name.length) h.family ∧
    At D (30 + h.name.length + h.family.length) (le 1 h.author.length) ∧
    At D (31 + h.name.length + h.family.length) h.author ∧
    At D (31 + h.name.length + h.family.length + h.author.length) (le 2 h.about.length) ∧
    At D (33 + h.name.length + h.family.length + h.author.length) h.about := by
  have hdl : ∀ d : YMD, d.bytes.length = 4 := by
    intro d; simp [YMD.bytes, le_length]
  simp only [Header.bytes, At.append, List.length_append, le_length, hdl, Nat.zero_add] at hD
  obtain ⟨⟨⟨⟨⟨⟨⟨⟨⟨⟨h1, h2⟩, h3⟩, h4⟩, h5⟩, h6⟩, h7⟩, h8, h9⟩, h10, h11⟩, h12, h13⟩, h14, h15⟩ := hD
  refine ⟨h1, h2, h3, h4, h5, h6, h7, h8, h9, ?_, ?_, ?_, ?_, ?_, ?_⟩
  · exact h10.cast (by omega)
  · exact h11.cast (by omega)
  · exact h12.cast (by omega)
  · exact h13.cast (by omega)
  · exact h14.cast (by omega)
  · exact h15.cast (by omega)

theorem unsafeString_at {D : Bytes} {o : Nat} {x : Bytes} (h : At D o x) (ho : o < D.length) :
    unsafeString D o x.length = .ok x := by
  rw [unsafeString_eq ho h.len]
  exact congrArg _ h.sub

/-- What the builder writes is the header of the specification. -/
def headerOf (b : Builder) : Header :=
  ⟨2, b.fontID.toNat, b.versionMajor.toNat, b.versionMinor.toNat,
   ⟨b.firstVersionDate.year, b.firstVersionDate.month, b.firstVersionDate.day⟩,
   ⟨b.majorVersionDate.year, b.majorVersionDate.month, b.majorVersionDate.day⟩,
   ⟨b.minorVersionDate.year, b.minorVersionDate.month, b.minorVersionDate.day⟩,
   b.fontName, b.fontFamily, b.fontAuthor, b.fontAbout⟩

theorem byte_eq_ofNat (v : Nat) : byte v = UInt8.ofNat (v % 256) := by
  apply UInt8.toNat_inj.1
  rw [byte_val, UInt8.toNat_ofNat']
  omega

theorem le16_eq (v : Nat) : le16 v = le 2 v := by
  simp only [le16, le, byte_eq_ofNat, Nat.shiftRight_eq_div_pow]
theorem le24_eq (v : Nat) : le24 v = le 3 v := by
  simp only [le24, le, byte_eq_ofNat, Nat.shiftRight_eq_div_pow, Nat.div_div_eq_div_mul]
theorem le32_eq (v : Nat) : le32 v = le 4 v := by
  simp only [le32, le, byte_eq_ofNat, Nat.shiftRight_eq_div_pow, Nat.div_div_eq_div_mul]
theorem append64_eq (v : Nat) : appendUint64LE [] v = le 8 v := by
  simp only [appendUint64LE, le, byte_eq_ofNat, Nat.shiftRight_eq_div_pow, Nat.div_div_eq_div_mul,
    List.nil_append]

theorem headerSection_eq {b : Builder} {x : Bytes} (h : b.headerSection = .ok x) :
    x = (headerOf b).bytes ∧ b.fontName.length ≤ 255 ∧ b.fontFamily.length ≤ 255 ∧
      b.fontAuthor.length ≤ 255 ∧ b.fontAbout.length ≤ 65535 := by
  simp only [Builder.headerSection, appendShortString, appendString, Res.bind_eq_ok, ite_panic,
    Res.ok.injEq] at h
  obtain ⟨d1, ⟨h1, rfl⟩, d2, ⟨h2, rfl⟩, d3, ⟨h3, rfl⟩, h4, rfl⟩ := h
  refine ⟨?_, by omega, by omega, by omega, by omega⟩
  have e8 : ∀ v, [byte v] = le 1 v := fun v => by simp [le, byte_eq_ofNat]
  have e64 : ∀ (b : Bytes) v, appendUint64LE b v = b ++ le 8 v := fun b v => by
    rw [← append64_eq]; rfl
  have e16 : ∀ (b : Bytes) v, appendUint16LE b v = b ++ le 2 v := fun b v => by
    rw [← le16_eq]; rfl
  have e32 : ∀ (b : Bytes) v, appendUint32LE b v = b ++ le 4 v := fun b v => by
    rw [← le32_eq]; rfl
  have ed : ∀ m d, [byte m, byte d] = le 1 m ++ le 1 d := fun m d => by simp [le, byte_eq_ofNat]
  simp only [Builder.dateBytes, ed]
  simp only [e64, e16, e32, e8, Header.bytes, headerOf, YMD.bytes,
    FontModel.formatVersion, List.append_assoc, List.nil_append]

end BuilderModel

/-! ## What the accessors with `uint8` indices depend on -/

namespace BuilderModel
open Go Helpers Spec FontModel

theorem rd8_take {D D' : Bytes} (h : D.take 256 = D'.take 256) {i : Nat} (hi : i < 256) :
    FontModel.rd8 D i = FontModel.rd8 D' i := by
  have h1 : D[i]? = D'[i]? := by
    have := congrArg (fun l : Bytes => l[i]?) h
    simpa [List.getElem?_take, hi] using this
  rw [FontModel.rd8, FontModel.rd8]
  unfold idx
  rw [h1]

theorem slice_take {D D' : Bytes} (h : D.take 256 = D'.take 256) {a b : Nat} (hb : b < 256) :
    slice D a b = slice D' a b := by
  have hl : b ≤ D.length ↔ b ≤ D'.length := by
    have := congrArg List.length h
    rw [List.length_take, List.length_take] at this
    omega
  have h2 : (D.take b).drop a = (D'.take b).drop a := by
    have := congrArg (fun l : Bytes => (l.take b).drop a) h
    simpa [List.take_take, Nat.min_eq_left (by omega : b ≤ 256)] using this
  unfold slice
  by_cases hc : a ≤ b ∧ b ≤ D.length
  · rw [if_pos hc, if_pos ⟨hc.1, hl.1 hc.2⟩, h2]
  · rw [if_neg hc, if_neg (fun h => hc ⟨h.1, hl.2 h.2⟩)]

theorem unsafeString_len {D : Bytes} {o n : Nat} {x : Bytes} (h : unsafeString D o n = .ok x) :
    x.length = n := by
  simp only [unsafeString, Res.bind_eq_ok] at h
  obtain ⟨_, _, h⟩ := h
  split at h
  · simp only [Res.pure_eq, Res.ok.injEq] at h
    subst h
    rw [List.length_take, List.length_drop]; omega
  · cases h

theorem u8_lt (n : Nat) : u8 n < 256 := by rw [u8]; omega

/-- Two fonts with the same first 256 bytes have family names, authors and about texts of the same
length. -/
theorem same_lengths {f f' : FontModel.Font} (h : f.data.take 256 = f'.data.take 256) :
    (∀ x y, f.family = .ok x → f'.family = .ok y → x.length = y.length) ∧
    (∀ x y, f.author = .ok x → f'.author = .ok y → x.length = y.length) ∧
    (∀ x y, f.about = .ok x → f'.about = .ok y → x.length = y.length) := by
  have e := fun i => rd8_take h (i := u8 i) (u8_lt i)
  have e28 := rd8_take h (i := 28) (by omega)
  have es := fun a b => slice_take h (a := a) (b := u8 b) (u8_lt b)
  refine ⟨?_, ?_, ?_⟩
  · intro x y hx hy
    simp only [Font.family, Res.bind_eq_ok, e, e28] at hx hy
    obtain ⟨n, hn, l, hl, hx⟩ := hx
    obtain ⟨n', hn', l', hl', hy⟩ := hy
    rw [hn] at hn'; cases hn'
    rw [hl] at hl'; cases hl'
    rw [unsafeString_len hx, unsafeString_len hy]
  · intro x y hx hy
    simp only [Font.author, Res.bind_eq_ok, e, e28] at hx hy
    obtain ⟨n, hn, l, hl, k, hk, hx⟩ := hx
    obtain ⟨n', hn', l', hl', k', hk', hy⟩ := hy
    rw [hn] at hn'; cases hn'
    rw [hl] at hl'; cases hl'
    rw [hk] at hk'; cases hk'
    rw [unsafeString_len hx, unsafeString_len hy]
  · intro x y hx hy
    simp only [Font.about, Res.bind_eq_ok, e, e28, es] at hx hy
    obtain ⟨n, hn, l, hl, k, hk, s, hs, t, ht, hx⟩ := hx
    obtain ⟨n', hn', l', hl', k', hk', s', hs', t', ht', hy⟩ := hy
    rw [hn] at hn'; cases hn'
    rw [hl] at hl'; cases hl'
    rw [hk] at hk'; cases hk'
    rw [hs] at hs'; cases hs'
    rw [ht] at ht'; cases ht'
    rw [unsafeString_len hx, unsafeString_len hy]

theorem take_256_append {a x y : Bytes} (h : 256 ≤ a.length) : (a ++ x).take 256 = (a ++ y).take 256 := by
  rw [List.take_append_of_le_length h, List.take_append_of_le_length h]

theorem succ_ne (x : UInt8) : x ≠ x + 1 := by
  intro h
  have := congrArg UInt8.toNat h
  rw [UInt8.toNat_add] at this
  have h1 := x.toNat_lt
  simp at this
  omega

/-- The part of the header before the family, author or about text. -/
def preFamily (h : Header) : Bytes :=
  le 4 h.format ++ le 8 h.id ++ le 2 h.major ++ le 2 h.minor ++
  h.first.bytes ++ h.majorDate.bytes ++ h.minorDate.bytes ++ (le 1 h.name.length ++ h.name)
def preAuthor (h : Header) : Bytes := preFamily h ++ (le 1 h.family.length ++ h.family)
def preAbout (h : Header) : Bytes := preAuthor h ++ (le 1 h.author.length ++ h.author)

theorem preFamily_length (h : Header) : (preFamily h).length = 29 + h.name.length := by
  simp [preFamily, YMD.bytes, le_length]; omega
theorem preAuthor_length (h : Header) :
    (preAuthor h).length = 30 + h.name.length + h.family.length := by
  rw [preAuthor, List.length_append, preFamily_length, List.length_append, le_length]; omega
theorem preAbout_length (h : Header) :
    (preAbout h).length = 31 + h.name.length + h.family.length + h.author.length := by
  rw [preAbout, List.length_append, preAuthor_length, List.length_append, le_length]; omega

theorem bytes_family (h : Header) : h.bytes = preFamily h ++ ((le 1 h.family.length ++ h.family) ++
    ((le 1 h.author.length ++ h.author) ++ (le 2 h.about.length ++ h.about))) := by
  simp [Header.bytes, preFamily]
theorem bytes_author (h : Header) : h.bytes = preAuthor h ++
    ((le 1 h.author.length ++ h.author) ++ (le 2 h.about.length ++ h.about)) := by
  simp [Header.bytes, preFamily, preAuthor]
theorem bytes_about (h : Header) : h.bytes = preAbout h ++ (le 2 h.about.length ++ h.about) := by
  simp [Header.bytes, preFamily, preAuthor, preAbout]

theorem two_lengths {α : Type} {g : Bytes → Res α} {len : α → Nat} (conv : α → Bytes)
    (hlen : ∀ a, len a = (conv a).length)
    (h : ∀ x y, g [0] = .ok x → g [0, 0] = .ok y → len x = len y) :
    ∃ s : Bytes, s.length ≤ 2 ∧ ∀ x, g s = .ok x → conv x ≠ s := by
  by_cases h1 : ∃ x, g [0] = .ok x ∧ conv x = [0]
  · refine ⟨[0, 0], by simp, ?_⟩
    intro y hy he
    obtain ⟨x, hx, hx'⟩ := h1
    have := h x y hx hy
    rw [hlen, hlen, hx', he] at this
    simp at this
  · exact ⟨[0], by simp, fun x hx he => h1 ⟨x, hx, he⟩⟩

end BuilderModel
