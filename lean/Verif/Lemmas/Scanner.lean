import Verif.Lemmas.Rules
import Verif.Model.Scanner
import Verif.Spec.RuleScan
import Mathlib.Tactic.SplitIfs

/-! # Scanning encoded rules -/

namespace ScannerModel
open Go Helpers Spec

/-- `word` is the code of elements of the kind `k`. -/
structure Coded (k : Kind) (word : Nat → Bytes) (ok : Nat → Prop) : Prop where
  width : 0 < k.width
  len : ∀ v, (word v).length = k.width
  dec : ∀ v x, ok v → k.decode (word v ++ x) = .ok v
  valid : ∀ v, ok v → k.valid v = true

theorem rdb_lt {d : Bytes} {i : Nat} (h : i < d.length) : rdb d i = .ok d[i].toNat := by
  rw [rdb, idx_lt h, Res.ok_bind]; rfl

/-- What is left of the data. -/
structure Rest (D : Bytes) (i : Nat) (x : Bytes) : Prop where
  le : i ≤ D.length
  eq : D.drop i = x

theorem Rest.len {D : Bytes} {i : Nat} {x : Bytes} (h : Rest D i x) : i + x.length = D.length := by
  have := h.le
  rw [← h.eq, List.length_drop]; omega

theorem Rest.append {D : Bytes} {i : Nat} {x y : Bytes} (h : Rest D i (x ++ y)) : Rest D (i + x.length) y := by
  have := h.len
  rw [List.length_append] at this
  refine ⟨by omega, ?_⟩
  rw [← List.drop_drop, h.eq, List.drop_left]

theorem Rest.rdb {D : Bytes} {i : Nat} {b : UInt8} {x : Bytes} (h : Rest D i (b :: x)) :
    rdb D i = .ok b.toNat := by
  have hl := h.len
  rw [List.length_cons] at hl
  rw [rdb_lt (by omega)]
  have : D[i]? = some b := by
    have := congrArg (·[0]?) h.eq
    simpa using this
  rw [(List.getElem?_eq_some_iff.1 this).2]

theorem Rest.slice {D : Bytes} {i : Nat} {x : Bytes} (h : Rest D i x) : sliceFrom D i = .ok x := by
  rw [sliceFrom, if_pos h.le, h.eq]

theorem Rest.cons {D : Bytes} {i : Nat} {b : UInt8} {x : Bytes} (h : Rest D i (b :: x)) : Rest D (i + 1) x :=
  Rest.append (x := [b]) h

/-- The elements left: in the fragment, in the block and in the following blocks. -/
def left (b : Nat) (sets ones : List Nat) (frs : List Fragment) : List (List Fragment) → List (Nat × InElem)
  | later => (sets.map InElem.set ++ (ones.map InElem.one ++ blockElems frs)).map (b, ·) ++
    (later.zipIdx (b + 1)).flatMap fun p => (blockElems p.1).map (p.2, ·)

/-- The bytes left. -/
def leftBytes (word : Nat → Bytes) (sets ones : List Nat) (frs : List Fragment) (later : List (List Fragment)) :
    Bytes :=
  sets.map UInt8.ofNat ++ (ones.flatMap word ++ (frs.flatMap (Fragment.bytes word) ++
    later.flatMap (blockBytes word)))

/-- A scanner inside or at the end of a fragment. -/
structure St (word : Nat → Bytes) (ok : Nat → Prop) (D : Bytes) (s : Scanner) (b : Nat) (sets ones : List Nat)
    (frs : List Fragment) (later : List (List Fragment)) : Prop where
  size : D.length < 65536
  rule : s.rule = D
  block : s.block = b
  rest : Rest D s.dataIndex (leftBytes word sets ones frs later)
  remSets : s.remSets = sets.length
  remOnes : s.remElems = ones.length
  remBlock : s.remBlock = blockSize frs
  len : rdb D (1 + b) = .ok (s.accSets + s.accElems + blockSize frs)
  lenLe : s.accSets + s.accElems + blockSize frs ≤ 255
  blocks : b + later.length = 2
  lens : ∀ j blk, later[j]? = some blk → rdb D (1 + (b + 1 + j)) = .ok (blockSize blk) ∧ blockSize blk ≤ 255
  body : later.length = 2 → later[0]? ≠ some []
  setOk : ∀ g ∈ sets, g < 256
  oneOk : ∀ v ∈ ones, ok v
  frsOk : ∀ f ∈ frs, f.Ok ok
  laterOk : ∀ fs ∈ later, ∀ f ∈ fs, f.Ok ok

/-- A scanner between two elements, with the elements left. -/
inductive Landed (word : Nat → Bytes) (ok : Nat → Prop) (D : Bytes) : Scanner → List (Nat × InElem) → Prop
  | done {s : Scanner} : s.rule = D → s.dataIndex = D.length → Landed word ok D s []
  | mid {s : Scanner} {b : Nat} {sets ones : List Nat} {frs : List Fragment} {later : List (List Fragment)} :
    St word ok D s b sets ones frs later → 0 < sets.length + ones.length →
    Landed word ok D s (left b sets ones frs later)

theorem ctrl_eq {n m : Nat} (hn : n ≤ 15) (hm : m ≤ 15) : (UInt8.ofNat (16 * n + m)).toNat = 16 * n + m ∧
    ((16 * n + m) &&& 0xF0) >>> 4 = n ∧ (16 * n + m) &&& 0x0F = m := by
  refine ⟨by simp; omega, ?_, ?_⟩
  · have : ∀ n ≤ 15, ∀ m ≤ 15, ((16 * n + m) &&& 0xF0) >>> 4 = n := by decide
    exact this n hn m hm
  · have : ∀ n ≤ 15, ∀ m ≤ 15, (16 * n + m) &&& 0x0F = m := by decide
    exact this n hn m hm

/-- A control byte that begins a fragment. -/
theorem parseControl_ok {word : Nat → Bytes} {ok : Nat → Prop} {D : Bytes} {s : Scanner} {b : Nat} {fr : Fragment}
    {frs : List Fragment} {later : List (List Fragment)} (h : St word ok D s b [] [] (fr :: frs) later) :
    ∃ s', parseControl s = .ok (s', true) ∧ St word ok D s' b fr.sets fr.ones frs later := by
  have hf := h.frsOk fr (by simp)
  obtain ⟨hc, hs, ho⟩ := ctrl_eq hf.sets hf.ones
  have hpos : 0 < fr.sets.length + fr.ones.length := hf.pos
  have hr : Rest D s.dataIndex (UInt8.ofNat (16 * fr.sets.length + fr.ones.length) ::
      leftBytes word fr.sets fr.ones frs later) := by
    have := h.rest
    simpa [leftBytes, Fragment.bytes] using this
  have hl := hr.len
  rw [List.length_cons] at hl
  have hsz := h.size
  have h1 := h.lenLe
  have hb : blockSize (fr :: frs) = fr.sets.length + fr.ones.length + blockSize frs := by
    simp [blockSize, Fragment.size]
  have hf1 := hf.sets
  have hf2 := hf.ones
  have hrem := h.remBlock
  rw [hb] at h1 hrem
  have hlen := h.len
  rw [hb] at hlen
  rw [parseControl, h.rule, hr.rdb, Res.ok_bind, hc, hs, ho]
  simp only [h.block]
  rw [hlen, Res.ok_bind]
  have e1 : u8 (fr.sets.length + fr.ones.length) = fr.sets.length + fr.ones.length := Nat.mod_eq_of_lt (by omega)
  have e2 : u8 (s.accSets + fr.sets.length) = s.accSets + fr.sets.length := Nat.mod_eq_of_lt (by omega)
  have e3 : u8 (s.accElems + fr.ones.length) = s.accElems + fr.ones.length := Nat.mod_eq_of_lt (by omega)
  have e4 : u8 (s.accSets + fr.sets.length + (s.accElems + fr.ones.length)) =
      s.accSets + fr.sets.length + (s.accElems + fr.ones.length) := Nat.mod_eq_of_lt (by omega)
  have e5 : u16 (s.dataIndex + 1) = s.dataIndex + 1 := Nat.mod_eq_of_lt (by omega)
  have e6 : sub8 s.remBlock (fr.sets.length + fr.ones.length) = blockSize frs := by
    rw [sub8]; omega
  rw [e1, e2, e3, e4, e5, e6, if_neg (by omega), if_neg (by omega), if_neg (by omega), if_neg (by omega)]
  refine ⟨_, rfl, ⟨hsz, rfl, rfl, hr.cons, rfl, rfl, rfl, ?_, ?_, h.blocks, h.lens, h.body, hf.set, hf.one, ?_,
    h.laterOk⟩⟩
  · simp only []
    rw [hlen]; congr 1; omega
  · simp only []
    omega
  · intro f hf'; exact h.frsOk f (by simp [hf'])

theorem size_pos {ok : Nat → Prop} {fr : Fragment} {frs : List Fragment} (h : fr.Ok ok) :
    0 < blockSize (fr :: frs) := by
  have := h.pos
  simp [blockSize]; omega

theorem left_frag (b : Nat) (fr : Fragment) (frs : List Fragment) (later : List (List Fragment)) :
    left b [] [] (fr :: frs) later = left b fr.sets fr.ones frs later := by
  simp [left, blockElems, Fragment.elems]

theorem left_block (b : Nat) (blk : List Fragment) (later : List (List Fragment)) :
    left b [] [] [] (blk :: later) = left (b + 1) [] [] blk later := by
  simp [left, blockElems, List.zipIdx_cons]

theorem St.lt {word : Nat → Bytes} {ok : Nat → Prop} {D : Bytes} {s : Scanner} {b : Nat}
    {sets ones : List Nat} {frs : List Fragment} {later : List (List Fragment)}
    (h : St word ok D s b sets ones frs later) (hw : ∀ v, 0 < (word v).length)
    (hp : 0 < sets.length + ones.length) : s.dataIndex < D.length := by
  have hl := h.rest.len
  have : 0 < (leftBytes word sets ones frs later).length := by
    rw [leftBytes, List.length_append, List.length_append, List.length_map]
    rcases Nat.eq_zero_or_pos sets.length with h0 | h0
    · obtain ⟨v, vs, rfl⟩ := List.exists_cons_of_length_pos (show 0 < ones.length by omega)
      rw [List.flatMap_cons, List.length_append]
      have := hw v
      omega
    · omega
  omega

/-- Moving on after an element. -/
theorem afterElem_ok {word : Nat → Bytes} {ok : Nat → Prop} {D : Bytes} {s : Scanner} {b : Nat}
    {sets ones : List Nat} {frs : List Fragment} {later : List (List Fragment)} (hw : ∀ v, 0 < (word v).length)
    (h : St word ok D s b sets ones frs later) :
    ∃ s', afterElem s = .ok s' ∧ Landed word ok D s' (left b sets ones frs later) := by
  have hl := h.rest.len
  have hsz := h.size
  by_cases hp : 0 < sets.length + ones.length
  · have := h.lt hw hp
    rw [afterElem, h.rule, if_neg (by omega), if_neg (by rw [h.remSets, h.remOnes]; omega)]
    exact ⟨s, rfl, .mid h hp⟩
  · obtain rfl : sets = [] := List.length_eq_zero_iff.1 (by omega)
    obtain rfl : ones = [] := List.length_eq_zero_iff.1 (by omega)
    cases frs with
    | cons fr frs =>
      have hlt : s.dataIndex < D.length := by
        simp only [leftBytes, List.flatMap_cons, Fragment.bytes, List.length_append, List.length_cons] at hl
        omega
      obtain ⟨s', hs', hst⟩ := parseControl_ok h
      refine ⟨s', ?_, ?_⟩
      · rw [afterElem, h.rule, if_neg (by omega), if_pos ⟨h.remSets, h.remOnes⟩, advanceControl, if_neg, Res.ok_bind,
          hs', Res.ok_bind]
        · rfl
        · rw [h.remBlock]
          have := size_pos (frs := frs) (h.frsOk fr (by simp))
          omega
      · rw [left_frag]
        exact .mid hst (h.frsOk fr (by simp)).pos
    | nil =>
      have hrem : s.remBlock = 0 := by rw [h.remBlock]; rfl
      have hlen := h.len
      have hle := h.lenLe
      simp only [blockSize, List.map_nil, List.sum_nil, Nat.add_zero] at hlen hle
      cases later with
      | nil =>
        have hb := h.blocks
        simp only [List.length_nil, Nat.add_zero] at hb
        have he : s.dataIndex = D.length := by simpa [leftBytes] using hl
        refine ⟨s, ?_, .done h.rule he⟩
        have h1 := h.remSets
        have h2 := h.remOnes
        simp only [List.length_nil] at h1 h2
        subst hb
        rw [afterElem, h.rule, if_pos (by omega), checkTermination, h.rule, if_neg (by omega), h.block,
          if_neg (by omega), if_neg (by omega), if_pos rfl, hlen, Res.ok_bind, if_neg]
        · rfl
        · rw [u8, Nat.mod_eq_of_lt (by omega)]; simp
      | cons blk later =>
        have hb := h.blocks
        rw [List.length_cons] at hb
        obtain ⟨hm, hm'⟩ := h.lens 0 blk rfl
        have hlt : s.dataIndex < D.length := by
          have : 0 < (blockBytes word blk).length := by
            cases blk <;> simp [blockBytes, Fragment.bytes]
          simp only [leftBytes, List.flatMap_cons, List.flatMap_nil, List.map_nil, List.nil_append,
            List.length_append] at hl
          omega
        have hadv : afterElem s = (do
            let (s, fine) ← parseControl { s with block := s.block + 1, remBlock := blockSize blk, accSets := 0, accElems := 0 }
            if fine then return s else .err invalidRule) := by
          rw [afterElem, h.rule, if_neg (by omega), if_pos ⟨h.remSets, h.remOnes⟩, advanceControl, if_pos hrem, h.rule,
            h.block, hlen, Res.ok_bind, if_neg, if_neg (by omega), show 1 + (b + 1) = 1 + (b + 1 + 0) by omega, hm,
            Res.ok_bind]
          · rfl
          · rw [u8, Nat.mod_eq_of_lt (by omega)]; omega
        rw [hadv, left_block]
        cases blk with
        | cons fr frs =>
          have hst : St word ok D { s with block := s.block + 1, remBlock := blockSize (fr :: frs), accSets := 0, accElems := 0 } (b + 1) [] [] (fr :: frs) later := by
            refine ⟨hsz, h.rule, by simp only [h.block], ?_, h.remSets, h.remOnes, rfl, ?_, ?_, by omega, ?_, ?_,
              by simp, by simp, ?_, ?_⟩
            · have := h.rest
              simpa [leftBytes, blockBytes] using this
            · simp only [Nat.zero_add]
              exact hm
            · simp only [Nat.zero_add]
              exact hm'
            · intro j x hx
              have := h.lens (j + 1) x (by simpa using hx)
              rwa [show b + 1 + (j + 1) = b + 1 + 1 + j by omega] at this
            · intro hh; omega
            · intro f hf; exact h.laterOk _ (by simp) f hf
            · intro fs hfs; exact h.laterOk _ (by simp [hfs])
          obtain ⟨s', hs', hst'⟩ := parseControl_ok hst
          refine ⟨s', by rw [hs', Res.ok_bind]; rfl, ?_⟩
          rw [left_frag]
          exact .mid hst' (hst.frsOk fr (by simp)).pos
        | nil =>
          obtain rfl : later = [] := by
            cases later with
            | nil => rfl
            | cons x xs =>
              exfalso
              simp only [List.length_cons] at hb
              refine h.body ?_ rfl
              simp only [List.length_cons]; omega
          have hr : Rest D s.dataIndex [0] := by
            have := h.rest
            simpa [leftBytes, blockBytes] using this
          have hl' := hr.len
          simp only [List.length_cons, List.length_nil] at hl'
          simp only [blockSize, List.map_nil, List.sum_nil] at hm
          rw [parseControl]
          simp only [h.rule, h.block, hr.rdb, Res.ok_bind]
          rw [show 1 + (b + 1) = 1 + (b + 1 + 0) by omega, hm]
          refine ⟨_, rfl, ?_⟩
          have : left (b + 1) [] [] [] [] = [] := rfl
          rw [this]
          refine .done rfl ?_
          show u16 (s.dataIndex + 1) = _
          rw [u16, Nat.mod_eq_of_lt (by omega)]
          omega

/-- One element. -/
theorem next_ok {k : Kind} {word : Nat → Bytes} {ok : Nat → Prop} (hk : Coded k word ok) {D : Bytes} {s : Scanner}
    {b : Nat} {sets ones : List Nat} {frs : List Fragment} {later : List (List Fragment)}
    (h : St word ok D s b sets ones frs later) (hp : 0 < sets.length + ones.length) :
    ∃ s' x xs, next k s = .ok (s', (pair k (b, x)).2) ∧ left b sets ones frs later = (b, x) :: xs ∧
      Landed word ok D s' xs := by
  have hw : ∀ v, 0 < (word v).length := fun v => by rw [hk.len]; exact hk.width
  have hsz := h.size
  cases sets with
  | cons g sets =>
    have hg := h.setOk g (by simp)
    have hr : Rest D s.dataIndex (UInt8.ofNat g :: leftBytes word sets ones frs later) := by
      have := h.rest
      simpa [leftBytes] using this
    have hl := hr.len
    rw [List.length_cons] at hl
    have e5 : u16 (s.dataIndex + 1) = s.dataIndex + 1 := Nat.mod_eq_of_lt (by omega)
    have hrs := h.remSets
    rw [List.length_cons] at hrs
    have hst : St word ok D { s with remSets := s.remSets - 1, dataIndex := s.dataIndex + 1 } b sets ones frs later :=
      ⟨hsz, h.rule, h.block, hr.cons, by simp only []; omega, h.remOnes, h.remBlock, h.len, h.lenLe, h.blocks,
        h.lens, h.body, fun x hx => h.setOk x (by simp [hx]), h.oneOk, h.frsOk, h.laterOk⟩
    obtain ⟨s', hs', hla⟩ := afterElem_ok hw hst
    rw [h.rule] at hs'
    refine ⟨s', .set g, left b sets ones frs later, ?_, ?_, hla⟩
    · rw [next, if_pos (by omega), h.rule, if_neg (by simp only []; omega)]
      simp only [hr.rdb, Res.ok_bind, e5]
      rw [hs', Res.ok_bind, Res.pure_eq, pair, show (UInt8.ofNat g).toNat = g by simp; omega]
    · simp [left]
  | nil =>
    cases ones with
    | nil => simp at hp
    | cons v ones =>
      have hv := h.oneOk v (by simp)
      have hr : Rest D s.dataIndex (word v ++ leftBytes word [] ones frs later) := by
        have := h.rest
        simpa [leftBytes] using this
      have hl := hr.len
      rw [List.length_append, hk.len] at hl
      have hwd := hk.width
      have e5 : u16 (s.dataIndex + k.width) = s.dataIndex + k.width := Nat.mod_eq_of_lt (by omega)
      have hrs := h.remOnes
      rw [List.length_cons] at hrs
      have hst : St word ok D { s with remElems := s.remElems - 1, dataIndex := s.dataIndex + k.width } b [] ones frs
          later :=
        ⟨hsz, h.rule, h.block, by have := hr.append; rwa [hk.len] at this, h.remSets, by simp only []; omega,
          h.remBlock, h.len, h.lenLe, h.blocks,
          h.lens, h.body, by simp, fun x hx => h.oneOk x (by simp [hx]), h.frsOk, h.laterOk⟩
      obtain ⟨s', hs', hla⟩ := afterElem_ok hw hst
      rw [h.rule] at hs'
      refine ⟨s', .one v, left b [] ones frs later, ?_, ?_, hla⟩
      · have h0 := h.remSets
        simp only [List.length_nil] at h0
        rw [next, if_neg (by omega), if_pos (by omega), h.rule, if_neg (by simp only []; omega)]
        simp only [hr.slice, Res.ok_bind, e5, hk.dec v _ hv, hk.valid v hv]
        rw [if_neg (by simp), hs', Res.ok_bind, Res.pure_eq, pair]
      · simp [left]

theorem scan_ok {k : Kind} {word : Nat → Bytes} {ok : Nat → Prop} (hk : Coded k word ok) {D : Bytes} :
    ∀ (fuel : Nat) {s : Scanner} {xs : List (Nat × InElem)}, Landed word ok D s xs → xs.length ≤ fuel →
    scan k fuel s = .ok (xs.map (pair k))
  | fuel, s, _, .done hr hi, _ => by
    have : hasNext s = false := by simp [hasNext, hr, hi]
    cases fuel <;> simp [scan, this]
  | fuel, s, _, .mid h hp, hf => by
    obtain ⟨s', x, xs, h1, h2, h3⟩ := next_ok hk h hp
    rw [h2] at hf ⊢
    cases fuel with
    | zero => simp at hf
    | succ fuel =>
      have hn : hasNext s = true := by
        have := h.lt (fun v => by rw [hk.len]; exact hk.width) hp
        simp [hasNext, h.rule, this]
      rw [scan, if_pos hn, h1, Res.ok_bind]
      have := scan_ok hk fuel h3 (by simpa using hf)
      show (do
        let rest ← scan k fuel s'
        pure ((s.block, (pair k (_, x)).2) :: rest)) = _
      rw [this, Res.ok_bind, h.block]
      cases x <;> rfl

/-! ## The beginning -/

theorem flatMap_word_length {word : Nat → Bytes} {w : Nat} (h : ∀ v, (word v).length = w) (l : List Nat) :
    (l.flatMap word).length = l.length * w := by
  induction l with
  | nil => simp
  | cons a l ih => rw [List.flatMap_cons, List.length_append, h, ih, List.length_cons, Nat.succ_mul]; omega

theorem frag_length {word : Nat → Bytes} {w : Nat} (h : ∀ v, (word v).length = w) (hw : 0 < w) (f : Fragment) :
    (f.bytes word).length ≤ 1 + f.size * w := by
  rw [Fragment.bytes, List.length_append, List.length_append, List.length_map, flatMap_word_length h, Fragment.size,
    Nat.add_mul]
  have : f.sets.length ≤ f.sets.length * w := Nat.le_mul_of_pos_right _ hw
  simp only [List.length_cons, List.length_nil]
  omega

theorem frags_length {word : Nat → Bytes} {ok : Nat → Prop} {w : Nat} (h : ∀ v, (word v).length = w) (hw : 0 < w) :
    ∀ (fs : List Fragment), (∀ f ∈ fs, f.Ok ok) → (fs.flatMap (Fragment.bytes word)).length ≤ blockSize fs * (1 + w)
  | [], _ => by simp
  | f :: fs, hf => by
    have h1 := frags_length h hw fs (fun g hg => hf g (by simp [hg]))
    have h2 := frag_length h hw f
    have h3 := (hf f (by simp)).pos
    have h4 : blockSize (f :: fs) = f.size + blockSize fs := by simp [blockSize]
    rw [List.flatMap_cons, List.length_append, h4, Nat.add_mul]
    have h5 : f.size * (1 + w) = f.size + f.size * w := by rw [Nat.mul_add, Nat.mul_one]
    omega

theorem block_length {word : Nat → Bytes} {ok : Nat → Prop} {w : Nat} (h : ∀ v, (word v).length = w) (hw : 0 < w)
    (fs : List Fragment) (hf : ∀ f ∈ fs, f.Ok ok) : (blockBytes word fs).length ≤ 1 + blockSize fs * (1 + w) := by
  cases fs with
  | nil => simp [blockBytes]
  | cons f fs =>
    have := frags_length h hw _ hf
    rw [blockBytes]
    · omega
    · simp

theorem block_pos (word : Nat → Bytes) (fs : List Fragment) : 0 < (blockBytes word fs).length := by
  cases fs <;> simp [blockBytes, Fragment.bytes]

theorem block_pos2 {word : Nat → Bytes} {ok : Nat → Prop} {w : Nat} (h : ∀ v, (word v).length = w) (hw : 0 < w)
    (fs : List Fragment) (hf : ∀ f ∈ fs, f.Ok ok) (hp : fs ≠ []) : 2 ≤ (blockBytes word fs).length := by
  cases fs with
  | nil => contradiction
  | cons f fs =>
    have h3 := (hf f (by simp)).pos
    simp only [blockBytes, List.flatMap_cons, Fragment.bytes, List.length_append, List.length_cons, List.length_map,
      List.length_nil, flatMap_word_length h]
    rw [Fragment.size] at h3
    rcases Nat.eq_zero_or_pos f.sets.length with h0 | h0
    · have : f.ones.length * 1 ≤ f.ones.length * w := Nat.mul_le_mul_left _ hw
      omega
    · omega

theorem elems_length (fs : List Fragment) : (blockElems fs).length = blockSize fs := by
  induction fs with
  | nil => rfl
  | cons f fs ih =>
    rw [blockElems] at ih ⊢
    simp only [List.flatMap_cons, List.length_append, ih, blockSize, List.map_cons, List.sum_cons, Fragment.elems,
      List.length_map, Fragment.size]

theorem head5 (a b c d e : UInt8) (x : Bytes) (i : Nat) (hi : i < 5) :
    rdb ([a, b, c, d, e] ++ x) i = .ok ([a, b, c, d, e][i]'hi).toNat := by
  rw [rdb_lt (by rw [List.length_append]; simp only [List.length_cons, List.length_nil]; omega)]
  rw [List.getElem_append_left]

/-- Scanning a rule yields its elements. -/
theorem scanRule_ok {k : Kind} {word : Nat → Bytes} {ok : Nat → Prop} (hk : Coded k word ok)
    (hmin : k.minLen ≤ 9 + k.width) (hw4 : k.width ≤ 4) (r : RuleCode) (h : r.Ok ok) :
    scanRule k (r.bytes word) = .ok (r.elems.map (pair k)) := by
  have hw := hk.width
  have hT := h.total
  have hO := h.outLe
  have hOp := h.outPos
  have hbody : r.body ≠ [] := by
    intro hb
    rw [hb] at hO
    simp only [blockSize, List.map_nil, List.sum_nil] at hO
    omega
  generalize hD : r.bytes word = D
  have hD' : D = [r.condition, UInt8.ofNat (blockSize r.head), UInt8.ofNat (blockSize r.body),
      UInt8.ofNat (blockSize r.tail), UInt8.ofNat r.outs.length] ++ (r.outs.flatMap word ++ (blockBytes word r.head ++
      (blockBytes word r.body ++ blockBytes word r.tail))) := by rw [← hD]; rfl
  have r1 : rdb D 1 = .ok (blockSize r.head) := by
    rw [hD', head5 _ _ _ _ _ _ 1 (by omega)]
    simp; omega
  have r2 : rdb D 2 = .ok (blockSize r.body) := by
    rw [hD', head5 _ _ _ _ _ _ 2 (by omega)]
    simp; omega
  have r3 : rdb D 3 = .ok (blockSize r.tail) := by
    rw [hD', head5 _ _ _ _ _ _ 3 (by omega)]
    simp; omega
  have r4 : rdb D 4 = .ok r.outs.length := by
    rw [hD', head5 _ _ _ _ _ _ 4 (by omega)]
    simp; omega
  have hlenD : D.length = 5 + (r.outs.length * k.width + ((blockBytes word r.head).length +
      ((blockBytes word r.body).length + (blockBytes word r.tail).length))) := by
    rw [hD']
    simp only [List.length_append, List.length_cons, List.length_nil, flatMap_word_length hk.len]
  have l1 := block_length hk.len hw _ h.head
  have l2 := block_length hk.len hw _ h.body
  have l3 := block_length hk.len hw _ h.tail
  have p1 := block_pos word r.head
  have p2 := block_pos2 hk.len hw _ h.body hbody
  have p3 := block_pos word r.tail
  have how : r.outs.length * k.width ≤ 255 * 4 := Nat.mul_le_mul (by omega) hw4
  have how' : k.width ≤ r.outs.length * k.width := Nat.le_mul_of_pos_left _ hOp
  have m1 : blockSize r.head * (1 + k.width) ≤ 255 * 5 := Nat.mul_le_mul (by omega) (by omega)
  have m2 : blockSize r.body * (1 + k.width) ≤ 255 * 5 := Nat.mul_le_mul (by omega) (by omega)
  have m3 : blockSize r.tail * (1 + k.width) ≤ 255 * 5 := Nat.mul_le_mul (by omega) (by omega)
  have hsz : D.length < 65536 := by omega
  have rest5 : Rest D (5 + r.outs.length * k.width) (blockBytes word r.head ++
      (blockBytes word r.body ++ blockBytes word r.tail)) := by
    have : Rest D 0 D := ⟨by omega, by simp⟩
    rw [hD'] at this
    have := this.append.append
    rw [flatMap_word_length hk.len, ← hD'] at this
    simpa using this
  have e1 : u16 (5 + u16 (r.outs.length <<< k.shift)) = 5 + r.outs.length * k.width := by
    rw [Nat.shiftLeft_eq, ← Kind.width, u16, u16, Nat.mod_eq_of_lt (a := r.outs.length * k.width) (by omega),
      Nat.mod_eq_of_lt (by omega)]
  have key : ∃ s, start k D = .ok s ∧ Landed word ok D s r.elems := by
    rw [start, if_neg (by omega), r4, Res.ok_bind, if_neg (by omega), r1, Res.ok_bind, r2, Res.ok_bind, r3, Res.ok_bind]
    have u1 : u8 (blockSize r.head + blockSize r.body) = blockSize r.head + blockSize r.body :=
      Nat.mod_eq_of_lt (by omega)
    have u2 : u8 (blockSize r.head + blockSize r.body + blockSize r.tail) =
      blockSize r.head + blockSize r.body + blockSize r.tail := Nat.mod_eq_of_lt (by omega)
    simp only [u1, u2, e1]
    rw [if_neg (by omega), if_neg (by omega), if_neg (by omega)]
    cases hh : r.head with
    | nil =>
      rw [if_pos (by rfl), if_neg (by omega)]
      have e2 : u16 (5 + r.outs.length * k.width + 1) = 5 + r.outs.length * k.width + 1 :=
        Nat.mod_eq_of_lt (by omega)
      rw [e2]
      rw [hh] at rest5
      have rest6 := Rest.cons (show Rest D (5 + r.outs.length * k.width) (0 :: (blockBytes word r.body ++
        blockBytes word r.tail)) from rest5)
      obtain ⟨fr, frs, hfr⟩ := List.exists_cons_of_ne_nil hbody
      have hst : St word ok D ⟨D, 5 + r.outs.length * k.width + 1, 1, 0, 0,
          blockSize r.body, 0, 0⟩ 1 [] [] (fr :: frs) [r.tail] := by
        refine ⟨hsz, rfl, rfl, ?_, rfl, rfl, by rw [hfr], ?_, ?_, rfl, ?_, by simp, by simp, by simp, ?_, ?_⟩
        · rw [hfr] at rest6
          simpa [leftBytes, blockBytes] using rest6
        · rw [← hfr]
          simp only [Nat.zero_add]
          exact r2
        · rw [← hfr]
          simp only []
          omega
        · intro j blk hj
          cases j with
          | zero =>
            simp only [List.getElem?_cons_zero, Option.some.injEq] at hj
            subst hj
            exact ⟨r3, by omega⟩
          | succ j => simp at hj
        · rw [← hfr]; exact h.body
        · intro fs hfs
          simp only [List.mem_singleton] at hfs
          rw [hfs]; exact h.tail
      obtain ⟨s', hs', hst'⟩ := parseControl_ok hst
      refine ⟨s', by rw [hs', Res.ok_bind]; rfl, ?_⟩
      have := Landed.mid hst' (hst.frsOk fr (by simp)).pos
      rw [← left_frag] at this
      have he : r.elems = left 1 [] [] (fr :: frs) [r.tail] := by
        rw [RuleCode.elems, hh, hfr]
        simp [left, blockElems, List.zipIdx_cons]
      rwa [he]
    | cons fr frs =>
      have hp := size_pos (frs := frs) (h.head fr (by rw [hh]; simp))
      rw [if_neg (by omega)]
      have hst : St word ok D ⟨D, 5 + r.outs.length * k.width, 0, 0, 0,
          blockSize (fr :: frs), 0, 0⟩ 0 [] [] (fr :: frs) [r.body, r.tail] := by
        refine ⟨hsz, rfl, rfl, ?_, rfl, rfl, rfl, ?_, ?_, rfl, ?_, ?_, by simp, by simp, ?_, ?_⟩
        · rw [hh] at rest5
          simpa [leftBytes, blockBytes] using rest5
        · rw [← hh]
          simp only [Nat.zero_add]
          exact r1
        · rw [← hh]
          simp only []
          omega
        · intro j blk hj
          match j with
          | 0 =>
            simp only [List.getElem?_cons_zero, Option.some.injEq] at hj
            subst hj
            exact ⟨r2, by omega⟩
          | 1 =>
            simp only [List.getElem?_cons_succ, List.getElem?_cons_zero, Option.some.injEq] at hj
            subst hj
            exact ⟨r3, by omega⟩
          | j + 2 => simp at hj
        · intro _ hb
          simp only [List.getElem?_cons_zero, Option.some.injEq] at hb
          exact hbody hb
        · rw [← hh]; exact h.head
        · intro fs hfs
          simp only [List.mem_cons, List.not_mem_nil, or_false] at hfs
          rcases hfs with hfs | hfs <;> rw [hfs]
          · exact h.body
          · exact h.tail
      obtain ⟨s', hs', hst'⟩ := parseControl_ok hst
      refine ⟨s', by rw [hs', Res.ok_bind]; rfl, ?_⟩
      have := Landed.mid hst' (hst.frsOk fr (by simp)).pos
      rw [← left_frag] at this
      have he : r.elems = left 0 [] [] (fr :: frs) [r.body, r.tail] := by
        rw [RuleCode.elems, hh]
        simp [left, blockElems, List.zipIdx_cons]
      rwa [he]
  obtain ⟨s, hs, hla⟩ := key
  rw [scanRule, hs, Res.ok_bind]
  refine scan_ok hk _ hla ?_
  rw [RuleCode.elems]
  simp only [List.length_append, List.length_map, elems_length]
  have bl : ∀ fs : List Fragment, blockSize fs ≤ (blockBytes word fs).length := by
    intro fs
    cases fs with
    | nil => simp [blockSize]
    | cons f fs =>
      show _ ≤ ((f :: fs).flatMap (Fragment.bytes word)).length
      generalize f :: fs = gs
      induction gs with
      | nil => simp [blockSize]
      | cons g gs ih =>
        rw [List.flatMap_cons, List.length_append, blockSize, List.map_cons, List.sum_cons, ← blockSize]
        have : g.size ≤ (g.bytes word).length := by
          rw [Fragment.bytes, List.length_append, List.length_append, List.length_map, flatMap_word_length hk.len,
            Fragment.size]
          have : g.ones.length ≤ g.ones.length * k.width := Nat.le_mul_of_pos_right _ hw
          omega
        omega
  have b1 := bl r.head
  have b2 := bl r.body
  have b3 := bl r.tail
  omega

/-! ## The two kinds -/

theorem glyph_coded : Coded glyphKind word16 (· < 56789) where
  width := by decide
  len v := rfl
  dec v x hv := by
    show decodeUint16LE (UInt8.ofNat v :: UInt8.ofNat (v / 256) :: x) = _
    rw [decodeUint16LE_cons]
    simp
    omega
  valid v hv := by simpa [glyphKind] using hv

theorem utf8_coded : Coded utf8Kind word32 (fun v => v < 4294967296 ∧ v ≠ 65533) where
  width := by decide
  len v := rfl
  dec v x hv := by
    show decodeUint32LE (UInt8.ofNat v :: UInt8.ofNat (v / 256) :: UInt8.ofNat (v / 65536) ::
      UInt8.ofNat (v / 16777216) :: x) = _
    rw [decodeUint32LE_cons]
    have := hv.1
    simp
    omega
  valid v hv := by simpa [utf8Kind] using hv.2

/-! ## Any bytes -/

theorem parseControl_lt {s : Scanner} (hb : s.block ≤ 2) (h5 : 5 ≤ s.rule.length) (hd : s.dataIndex < s.rule.length) :
    ∃ s' fine, parseControl s = .ok (s', fine) ∧ s'.rule = s.rule ∧ s'.block = s.block ∧
      s'.dataIndex = u16 (s.dataIndex + 1) := by
  rw [parseControl, rdb_lt hd, Res.ok_bind]
  simp only []
  rw [rdb_lt (by omega), Res.ok_bind]
  split_ifs <;> exact ⟨_, _, rfl, rfl, rfl, rfl⟩

theorem advanceControl_lt {s : Scanner} (hb : s.block ≤ 2) (h5 : 5 ≤ s.rule.length) (hd : s.dataIndex < s.rule.length) :
    advanceControl s = .err invalidRule ∨ ∃ s', advanceControl s = .ok s' ∧ s'.rule = s.rule ∧ s'.block ≤ 2 ∧
      s'.dataIndex = u16 (s.dataIndex + 1) := by
  have key : ∀ s : Scanner, s.block ≤ 2 → 5 ≤ s.rule.length → s.dataIndex < s.rule.length →
      (do
        let (s, fine) ← parseControl s
        if fine then return s else .err invalidRule : Res Scanner) = .err invalidRule ∨
      ∃ s', (do
        let (s, fine) ← parseControl s
        if fine then return s else .err invalidRule : Res Scanner) = .ok s' ∧ s'.rule = s.rule ∧ s'.block ≤ 2 ∧
      s'.dataIndex = u16 (s.dataIndex + 1) := by
    intro s hb h5 hd
    obtain ⟨s', fine, h1, h2, h3, h4⟩ := parseControl_lt hb h5 hd
    rw [h1, Res.ok_bind]
    cases fine
    · exact .inl rfl
    · exact .inr ⟨s', rfl, h2, by omega, h4⟩
  rw [advanceControl]
  by_cases h0 : s.remBlock = 0
  · rw [if_pos h0, rdb_lt (by omega), Res.ok_bind]
    split_ifs with h1 h2
    · exact .inl rfl
    · exact .inl rfl
    · rw [rdb_lt (by omega), Res.ok_bind, Res.pure_eq, Res.ok_bind]
      exact key _ (by simp only []; omega) h5 hd
  · rw [if_neg h0, Res.ok_bind]
    exact key s hb h5 hd

theorem checkTermination_le {s : Scanner} (hb : s.block ≤ 2) (h5 : 5 ≤ s.rule.length) :
    checkTermination s = .err invalidRule ∨ checkTermination s = .ok () := by
  rw [checkTermination, rdb_lt (by omega)]
  simp only [Res.ok_bind]
  split_ifs <;> first | exact .inl rfl | exact .inr rfl | omega

theorem afterElem_le {s : Scanner} (hb : s.block ≤ 2) (h5 : 5 ≤ s.rule.length) :
    afterElem s = .err invalidRule ∨ ∃ s', afterElem s = .ok s' ∧ s'.rule = s.rule ∧ s'.block ≤ 2 ∧
      (s'.dataIndex = s.dataIndex ∨ s.dataIndex < s.rule.length ∧ s'.dataIndex = u16 (s.dataIndex + 1)) := by
  rw [afterElem]
  by_cases hd : s.dataIndex ≥ s.rule.length
  · rw [if_pos hd]
    rcases checkTermination_le hb h5 with h | h <;> rw [h]
    · exact .inl rfl
    · exact .inr ⟨s, rfl, rfl, hb, .inl rfl⟩
  · rw [if_neg hd]
    split_ifs
    · rcases advanceControl_lt hb h5 (by omega) with h | ⟨s', h1, h2, h3, h4⟩
      · exact .inl h
      · exact .inr ⟨s', h1, h2, h3, .inr ⟨by omega, h4⟩⟩
    · exact .inr ⟨s, rfl, rfl, hb, .inl rfl⟩

/-- Reading elements of the kind never panics when there are enough bytes. -/
def Kind.Safe (k : Kind) : Prop := 5 ≤ k.minLen ∧ 0 < k.width ∧ ∀ x : Bytes, k.width ≤ x.length → ∃ v, k.decode x = .ok v

theorem glyph_safe : glyphKind.Safe := by
  refine ⟨by decide, by decide, ?_⟩
  intro x hx
  match x, hx with
  | a :: b :: x, _ => exact ⟨_, decodeUint16LE_cons a b x⟩
  | [_], h => exact absurd h (by simp [glyphKind, Kind.width])
  | [], h => exact absurd h (by simp [glyphKind, Kind.width])

theorem utf8_safe : utf8Kind.Safe := by
  refine ⟨by decide, by decide, ?_⟩
  intro x hx
  match x, hx with
  | a :: b :: c :: d :: x, _ => exact ⟨_, decodeUint32LE_cons a b c d x⟩
  | [_, _, _], h => exact absurd h (by simp [utf8Kind, Kind.width])
  | [_, _], h => exact absurd h (by simp [utf8Kind, Kind.width])
  | [_], h => exact absurd h (by simp [utf8Kind, Kind.width])
  | [], h => exact absurd h (by simp [utf8Kind, Kind.width])

theorem next_cases {k : Kind} (hk : k.Safe) {s : Scanner} (hb : s.block ≤ 2) (h5 : 5 ≤ s.rule.length)
    (h : 0 < s.remSets + s.remElems) :
    next k s = .err invalidRule ∨ ∃ s' x, next k s = .ok (s', x) ∧ s'.rule = s.rule ∧ s'.block ≤ 2 ∧
      (s.rule.length ≤ 65535 → s.dataIndex < s'.dataIndex) := by
  rw [next]
  by_cases h1 : s.remSets > 0
  · rw [if_pos h1]
    simp only []
    split_ifs with h2
    · exact .inl rfl
    · rw [rdb_lt (by omega), Res.ok_bind]
      rcases afterElem_le (s := { s with remSets := s.remSets - 1, dataIndex := u16 (s.dataIndex + 1) }) hb h5 with
        h3 | ⟨s', h3, h4, h5, h6⟩ <;> rw [h3]
      · exact .inl rfl
      · refine .inr ⟨s', _, rfl, h4, h5, ?_⟩
        intro hl
        simp only [u16] at h6
        omega
  · rw [if_neg h1, if_pos (by omega)]
    simp only []
    split_ifs with h2
    · exact .inl rfl
    · have hw := hk.2.1
      rw [sliceFrom, if_pos (by omega), Res.ok_bind]
      obtain ⟨v, hv⟩ := hk.2.2 (s.rule.drop s.dataIndex) (by rw [List.length_drop]; omega)
      rw [hv, Res.ok_bind]
      split_ifs with h3
      · exact .inl rfl
      · rcases afterElem_le (s := { s with remElems := s.remElems - 1, dataIndex := u16 (s.dataIndex + k.width) }) hb h5
          with h3 | ⟨s', h3, h4, h5, h6⟩ <;> rw [h3]
        · exact .inl rfl
        · refine .inr ⟨s', _, rfl, h4, h5, ?_⟩
          intro hl
          simp only [u16] at h6
          omega

theorem next_zero {k : Kind} {s : Scanner} (h : ¬ 0 < s.remSets + s.remElems) : (next k s).isPanic = true := by
  rw [next, if_neg (by omega), if_neg (by omega)]
  split_ifs <;> rfl

theorem start_inv {k : Kind} (hk : k.Safe) {rule : Bytes} {s : Scanner} (h : start k rule = .ok s) :
    s.rule = rule ∧ s.block ≤ 2 ∧ 5 ≤ rule.length := by
  rw [start] at h
  have := hk.1
  split at h
  · simp at h
  rename_i hl
  have key : ∀ t : Scanner, t.block ≤ 2 → t.rule = rule → ∀ s, (do
      let (s, _) ← parseControl t
      return s : Res Scanner) = .ok s → s.rule = rule ∧ s.block ≤ 2 ∧ 5 ≤ rule.length := by
    intro t ht hr s hs
    by_cases hd : t.dataIndex < t.rule.length
    · obtain ⟨s', fine, h1, h2, h3, h4⟩ := parseControl_lt ht (by rw [hr]; omega) hd
      rw [h1, Res.ok_bind] at hs
      simp only [Res.pure_eq, Res.ok.injEq] at hs
      subst hs
      exact ⟨by rw [h2, hr], by omega, by omega⟩
    · rw [parseControl, rdb, idx_ge (by omega)] at hs
      simp at hs
  simp only [rdb_lt (show 4 < rule.length by omega), rdb_lt (show 3 < rule.length by omega),
    rdb_lt (show 2 < rule.length by omega), rdb_lt (show 1 < rule.length by omega), Res.ok_bind] at h
  split_ifs at h
  · exact key _ (by simp) rfl _ h
  · exact key _ (by simp) rfl _ h

theorem reached_inv {k : Kind} (hk : k.Safe) {rule : Bytes} {s : Scanner} (h : Reached k rule s) :
    s.rule = rule ∧ s.block ≤ 2 ∧ 5 ≤ rule.length := by
  induction h with
  | start h => exact start_inv hk h
  | next _ hn ih =>
    rename_i s s' x _
    obtain ⟨h1, h2, h3⟩ := ih
    by_cases hp : 0 < s.remSets + s.remElems
    · rcases next_cases hk h2 (by rw [h1]; exact h3) hp with h | ⟨t, y, h4, h5, h6, _⟩
      · rw [h] at hn; simp at hn
      · rw [h4] at hn
        simp only [Res.ok.injEq, Prod.mk.injEq] at hn
        rw [← hn.1]
        exact ⟨by rw [h5, h1], h6, h3⟩
    · have := next_zero (k := k) hp
      rw [hn] at this
      simp at this

theorem scan_fuel {k : Kind} (hk : k.Safe) {rule : Bytes} (hl : rule.length ≤ 65535) : ∀ (fuel : Nat) {s : Scanner},
    Reached k rule s → rule.length ≤ fuel + s.dataIndex → scan k fuel s = scan k (fuel + 1) s
  | 0, s, hr, hf => by
    have hi := reached_inv hk hr
    have : hasNext s = false := by simp [hasNext, hi.1]; omega
    simp [scan, this]
  | fuel + 1, s, hr, hf => by
    have hi := reached_inv hk hr
    rw [scan, scan]
    split_ifs
    · cases hn : next k s with
      | err e => rfl
      | panic e => rfl
      | ok x =>
        obtain ⟨s', x⟩ := x
        simp only [Res.ok_bind]
        have hp : 0 < s.remSets + s.remElems := by
          by_cases hp : 0 < s.remSets + s.remElems
          · exact hp
          · have := next_zero (k := k) hp
            rw [hn] at this
            simp at this
        rcases next_cases hk hi.2.1 (by rw [hi.1]; exact hi.2.2) hp with h | ⟨t, y, h4, h5, h6, h7⟩
        · rw [h] at hn; simp at hn
        · rw [h4] at hn
          simp only [Res.ok.injEq, Prod.mk.injEq] at hn
          have h8 := h7 (by rw [hi.1]; exact hl)
          rw [hn.1] at h8
          rw [scan_fuel hk hl fuel (.next hr (by rw [h4, hn.1])) (by omega)]
    · rfl

end ScannerModel
