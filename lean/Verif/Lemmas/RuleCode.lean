import Verif.Lemmas.BuiltRewrites
import Verif.Lemmas.BoolList
import Verif.Lemmas.Scanner

/-! # The fragments that the builder makes -/

namespace BuilderModel.Builder
open Go Helpers Spec

/-- `group` and `elem` make codes of sets and elements, which `back` maps to what they stand for. -/
structure Codes (group : Nat → Res UInt8) (elem : Nat → Res Bytes) (word : Nat → Bytes) (ok : Nat → Prop)
    (back : InElem → Option InElem) : Prop where
  group : ∀ u y, group u = .ok y → ∃ i, i < 256 ∧ y = UInt8.ofNat i ∧ back (.set i) = some (.set u)
  elem : ∀ u y, elem u = .ok y → ∃ v, ok v ∧ y = word v ∧ back (.one v) = some (.one u)

theorem groups_enc {group : Nat → Res UInt8} {elem : Nat → Res Bytes} {word : Nat → Bytes} {ok : Nat → Prop}
    {back : InElem → Option InElem} (hc : Codes group elem word ok back) : ∀ {us : List Nat} {ys : Bytes},
    mapRes group us = .ok ys → ∃ is : List Nat, is.length = us.length ∧ (∀ i ∈ is, i < 256) ∧
      ys = is.map UInt8.ofNat ∧ (is.map InElem.set).map back = (us.map InElem.set).map some
  | [], ys, h => by simp only [mapRes, Res.ok.injEq] at h; subst h; exact ⟨[], by simp⟩
  | u :: us, ys, h => by
    simp only [mapRes, Res.bind_eq_ok, Res.pure_eq, Res.ok.injEq] at h
    obtain ⟨y, hy, ys, hys, rfl⟩ := h
    obtain ⟨i, hi, rfl, hb⟩ := hc.group _ _ hy
    obtain ⟨is, h1, h2, rfl, h4⟩ := groups_enc hc hys
    refine ⟨i :: is, by simp [h1], ?_, by simp, by simp only [List.map_cons, hb, h4]⟩
    intro x hx
    rcases List.mem_cons.1 hx with rfl | hx
    · exact hi
    · exact h2 x hx

theorem elems_enc {group : Nat → Res UInt8} {elem : Nat → Res Bytes} {word : Nat → Bytes} {ok : Nat → Prop}
    {back : InElem → Option InElem} (hc : Codes group elem word ok back) : ∀ {us : List Nat} {ys : List Bytes},
    mapRes elem us = .ok ys → ∃ vs : List Nat, vs.length = us.length ∧ (∀ v ∈ vs, ok v) ∧
      ys.flatten = vs.flatMap word ∧ (vs.map InElem.one).map back = (us.map InElem.one).map some
  | [], ys, h => by simp only [mapRes, Res.ok.injEq] at h; subst h; exact ⟨[], by simp⟩
  | u :: us, ys, h => by
    simp only [mapRes, Res.bind_eq_ok, Res.pure_eq, Res.ok.injEq] at h
    obtain ⟨y, hy, ys, hys, rfl⟩ := h
    obtain ⟨v, hv, rfl, hb⟩ := hc.elem _ _ hy
    obtain ⟨vs, h1, h2, h3, h4⟩ := elems_enc hc hys
    refine ⟨v :: vs, by simp [h1], ?_, by simp [h3], by simp only [List.map_cons, hb, h4]⟩
    intro x hx
    rcases List.mem_cons.1 hx with rfl | hx
    · exact hv
    · exact h2 x hx

theorem ctrl_byte {n m : Nat} (hn : n ≤ 15) (hm : m ≤ 15) :
    byte (u8 (n <<< 4) ||| u8 m) = UInt8.ofNat (16 * n + m) := by
  have : ∀ n ≤ 15, ∀ m ≤ 15, byte (u8 (n <<< 4) ||| u8 m) = UInt8.ofNat (16 * n + m) := by decide
  exact this n hn m hm

theorem fragmentBytes_enc {group : Nat → Res UInt8} {elem : Nat → Res Bytes} {word : Nat → Bytes} {ok : Nat → Prop}
    {back : InElem → Option InElem} (hc : Codes group elem word ok back) {gs es : List Nat} {x : Bytes}
    (h : fragmentBytes group elem gs es = .ok x) (hg : gs.length ≤ 15) (he : es.length ≤ 15)
    (hp : 0 < gs.length + es.length) :
    ∃ f : Fragment, f.Ok ok ∧ x = f.bytes word ∧
      f.elems.map back = (gs.map InElem.set ++ es.map InElem.one).map some := by
  simp only [fragmentBytes, Res.bind_eq_ok, Res.pure_eq, Res.ok.injEq] at h
  obtain ⟨ys, hys, zs, hzs, rfl⟩ := h
  obtain ⟨is, h1, h2, rfl, h4⟩ := groups_enc hc hys
  obtain ⟨vs, g1, g2, g3, g4⟩ := elems_enc hc hzs
  refine ⟨⟨is, vs⟩, ⟨by rw [h1]; exact hg, by rw [g1]; exact he, ?_, h2, g2⟩, ?_, ?_⟩
  · simp only [Fragment.size, h1, g1]; exact hp
  · rw [ctrl_byte hg he, g3, Fragment.bytes, h1, g1, List.append_assoc]
  · rw [Fragment.elems, List.map_append, List.map_append, h4, g4]

/-- The sets and elements waiting for a fragment. -/
def pending (r : Rule) (s : RuleState) : List InElem :=
  ((r.inGroups.drop s.groupsIndex).take s.accGroups).map .set ++
    ((r.inElems.drop s.listIndex).take s.accElems).map .one

/-- What has not been looked at. -/
def ahead (r : Rule) (bits : List Bool) (s : RuleState) : List InElem :=
  merge (bits.drop s.inIndex) (r.inGroups.drop (s.groupsIndex + s.accGroups))
    (r.inElems.drop (s.listIndex + s.accElems))

structure LoopInv (r : Rule) (bits : List Bool) (s : RuleState) : Prop where
  accG : s.accGroups ≤ 15
  accE : s.accElems ≤ 15
  leG : s.groupsIndex + s.accGroups ≤ r.inGroups.length
  leE : s.listIndex + s.accElems ≤ r.inElems.length
  cntG : (r.inGroups.drop (s.groupsIndex + s.accGroups)).length = (bits.drop s.inIndex).count true
  cntE : (r.inElems.drop (s.listIndex + s.accElems)).length = (bits.drop s.inIndex).count false

theorem pending_length {r : Rule} {bits : List Bool} {s : RuleState} (h : LoopInv r bits s) :
    (pending r s).length = s.accGroups + s.accElems := by
  have h1 := h.leG
  have h2 := h.leE
  simp only [pending, List.length_append, List.length_map, List.length_take, List.length_drop]
  omega

theorem merge_length : ∀ (bits : List Bool) (gs es : List Nat), gs.length = bits.count true →
    es.length = bits.count false → (merge bits gs es).length = bits.length
  | [], _, _, _, _ => by simp [merge]
  | true :: bits, [], es, h, _ => by simp at h
  | true :: bits, g :: gs, es, h, h' => by
    rw [merge, List.length_cons, merge_length bits gs es (by simpa using h) (by simpa using h')]; rfl
  | false :: bits, gs, [], _, h => by simp at h
  | false :: bits, gs, e :: es, h, h' => by
    rw [merge, List.length_cons, merge_length bits gs es (by simpa using h) (by simpa using h')]
    rfl

theorem flush_enc {group : Nat → Res UInt8} {elem : Nat → Res Bytes} {word : Nat → Bytes} {ok : Nat → Prop}
    {back : InElem → Option InElem} (hc : Codes group elem word ok back) {r : Rule} {bits : List Bool}
    {s s' : RuleState} (h : flushFragment group elem r s = .ok s') (hi : LoopInv r bits s)
    (hp : 0 < s.accGroups + s.accElems) :
    ∃ f : Fragment, f.Ok ok ∧ s'.data = s.data ++ f.bytes word ∧ f.elems.map back = (pending r s).map some ∧
      LoopInv r bits s' ∧ s'.inIndex = s.inIndex ∧ s'.accGroups = 0 ∧ s'.accElems = 0 ∧
      ahead r bits s' = ahead r bits s := by
  simp only [flushFragment, Res.bind_eq_ok, Res.pure_eq, Res.ok.injEq] at h
  obtain ⟨gs, hgs, es, hes, x, hx, rfl⟩ := h
  have h1 := hi.leG
  have h2 := hi.leE
  have h3 := hi.accG
  have h4 := hi.accE
  rw [slice, if_pos ⟨by omega, h1⟩, Res.ok.injEq] at hgs
  rw [slice, if_pos ⟨by omega, h2⟩, Res.ok.injEq] at hes
  have e1 : gs = (r.inGroups.drop s.groupsIndex).take s.accGroups := by
    rw [← hgs, List.drop_take]; congr 1; omega
  have e2 : es = (r.inElems.drop s.listIndex).take s.accElems := by
    rw [← hes, List.drop_take]; congr 1; omega
  have l1 : gs.length = s.accGroups := by rw [e1, List.length_take, List.length_drop]; omega
  have l2 : es.length = s.accElems := by rw [e2, List.length_take, List.length_drop]; omega
  obtain ⟨f, f1, f2, f3⟩ := fragmentBytes_enc hc hx (by omega) (by omega) (by omega)
  refine ⟨f, f1, by rw [f2], ?_, ⟨by simp, by simp, by simpa using h1, by simpa using h2, by simpa using hi.cntG,
    by simpa using hi.cntE⟩, rfl, rfl, rfl, rfl⟩
  rw [f3, e1, e2]; rfl

theorem take_snoc_drop {α : Type} {l : List α} {i n : Nat} {a : α} (h : l[i + n]? = some a) :
    (l.drop i).take (n + 1) = (l.drop i).take n ++ [a] := by
  rw [List.take_succ, List.getElem?_drop, h]; rfl

/-- The step without flushing. -/
theorem step_enc {r : Rule} {bits : List Bool} {s : RuleState} (hi : LoopInv r bits s) {g : Bool}
    (hg : bits[s.inIndex]? = some g) (hf : (if g then decide (s.accElems ≠ 0 ∨ s.accGroups = 15)
      else decide (s.accElems = 15)) = false) {s1 : RuleState}
    (h1 : s1 = { (if g then { s with accGroups := s.accGroups + 1 } else { s with accElems := s.accElems + 1 }) with
      inIndex := s.inIndex + 1 }) :
    s1.data = s.data ∧ s1.inIndex = s.inIndex + 1 ∧ 0 < s1.accGroups + s1.accElems ∧ LoopInv r bits s1 ∧
    pending r s1 ++ ahead r bits s1 = pending r s ++ ahead r bits s ∧
    ∃ x, pending r s1 = pending r s ++ [x] ∧ ahead r bits s = x :: ahead r bits s1 := by
  have hd : bits.drop s.inIndex = g :: bits.drop (s.inIndex + 1) := by
    obtain ⟨hlt, he⟩ := List.getElem?_eq_some_iff.1 hg
    rw [List.drop_eq_getElem_cons hlt, he]
  have c1 := hi.cntG
  have c2 := hi.cntE
  have c3 := hi.accG
  have c4 := hi.accE
  rw [hd] at c1 c2
  rw [List.length_drop] at c1 c2
  cases g with
  | true =>
    simp only [if_true] at h1 hf
    simp only [decide_eq_false_iff_not, not_or, Decidable.not_not] at hf
    subst h1
    simp only [List.count_cons_self] at c1
    have hlt : s.groupsIndex + s.accGroups < r.inGroups.length := by omega
    have hx : ∃ x, pending r { s with accGroups := s.accGroups + 1, inIndex := s.inIndex + 1 } =
        pending r s ++ [x] ∧ ahead r bits s =
          x :: ahead r bits { s with accGroups := s.accGroups + 1, inIndex := s.inIndex + 1 } := by
      refine ⟨.set r.inGroups[s.groupsIndex + s.accGroups], ?_, ?_⟩
      · simp only [pending, hf.1, List.take_zero, List.map_nil, List.append_nil]
        rw [take_snoc_drop (List.getElem?_eq_getElem hlt), List.map_append]; rfl
      · simp only [ahead, hd]
        rw [List.drop_eq_getElem_cons hlt, merge, Nat.add_assoc]
    refine ⟨rfl, rfl, by simp only []; omega, ⟨by simp only []; omega, hi.accE, by simp only []; omega, hi.leE, ?_, ?_⟩, ?_, hx⟩
    · simp only [List.length_drop]; omega
    · simp only [List.length_drop]
      rw [List.count_cons] at c2
      simpa using c2
    · obtain ⟨x, p, q⟩ := hx
      rw [p, q, List.append_assoc]; rfl
  | false =>
    simp only [Bool.false_eq_true, if_false] at h1 hf
    simp only [decide_eq_false_iff_not] at hf
    subst h1
    simp only [List.count_cons_self] at c2
    have hlt : s.listIndex + s.accElems < r.inElems.length := by omega
    have hx : ∃ x, pending r { s with accElems := s.accElems + 1, inIndex := s.inIndex + 1 } =
        pending r s ++ [x] ∧ ahead r bits s =
          x :: ahead r bits { s with accElems := s.accElems + 1, inIndex := s.inIndex + 1 } := by
      refine ⟨.one r.inElems[s.listIndex + s.accElems], ?_, ?_⟩
      · simp only [pending]
        rw [take_snoc_drop (List.getElem?_eq_getElem hlt), List.map_append, List.append_assoc]; rfl
      · simp only [ahead, hd]
        rw [List.drop_eq_getElem_cons hlt, merge, Nat.add_assoc]
    refine ⟨rfl, rfl, by simp only []; omega, ⟨hi.accG, by simp only []; omega, hi.leG, by simp only []; omega, ?_, ?_⟩, ?_, hx⟩
    · simp only [List.length_drop]
      rw [List.count_cons] at c1
      simpa using c1
    · simp only [List.length_drop]; omega
    · obtain ⟨x, p, q⟩ := hx
      rw [p, q, List.append_assoc]; rfl

theorem bool_get {l : BoolList} {bits : List Bool} (h : C02.Rep l bits) {i : Nat} (hi : i < bits.length) :
    l.get i = .ok bits[i] := by
  rw [BoolList.get, if_neg]
  · exact C02.get_rep h hi
  · rw [h.size]; omega

theorem blockLoop_enc {group : Nat → Res UInt8} {elem : Nat → Res Bytes} {word : Nat → Bytes} {ok : Nat → Prop}
    {back : InElem → Option InElem} (hc : Codes group elem word ok back) {r : Rule} {bits : List Bool}
    (hr : ∀ i (h : i < bits.length), r.isGroup.get i = .ok bits[i]) : ∀ {n : Nat} {s s' : RuleState} {has has' : Bool},
    blockLoop group elem r n s has = .ok (s', has') → LoopInv r bits s → s.inIndex + n ≤ bits.length →
    ∃ frs : List Fragment, (∀ f ∈ frs, f.Ok ok) ∧ s'.data = s.data ++ frs.flatMap (Fragment.bytes word) ∧
      LoopInv r bits s' ∧ s'.inIndex = s.inIndex + n ∧ (0 < n ∨ 0 < s.accGroups + s.accElems → 0 < s'.accGroups + s'.accElems) ∧
      (blockElems frs).map back ++ (pending r s').map some =
        (pending r s ++ (ahead r bits s).take n).map some ∧
      ahead r bits s' = (ahead r bits s).drop n
  | 0, s, s', has, has', h, hi, hn => by
    simp only [blockLoop, Res.ok.injEq, Prod.mk.injEq] at h
    obtain ⟨rfl, rfl⟩ := h
    exact ⟨[], by simp, by simp, hi, rfl, by simp, by simp [blockElems], by simp⟩
  | n + 1, s, s', has, has', h, hi, hn => by
    have hlt : s.inIndex < bits.length := by omega
    rw [blockLoop, hr _ hlt, Res.ok_bind] at h
    have hg : bits[s.inIndex]? = some bits[s.inIndex] := List.getElem?_eq_getElem hlt
    generalize bits[s.inIndex] = g at h hg
    rw [Res.bind_eq_ok] at h
    obtain ⟨s0, h0, h⟩ := h
    -- the state after flushing
    have key : ∃ frs : List Fragment, (∀ f ∈ frs, f.Ok ok) ∧ s0.data = s.data ++ frs.flatMap (Fragment.bytes word) ∧
        LoopInv r bits s0 ∧ s0.inIndex = s.inIndex ∧
        (if g then decide (s0.accElems ≠ 0 ∨ s0.accGroups = 15) else decide (s0.accElems = 15)) = false ∧
        (blockElems frs).map back ++ (pending r s0).map some = (pending r s).map some ∧
        ahead r bits s0 = ahead r bits s := by
      by_cases hcnd : (if g then decide (s.accElems ≠ 0 ∨ s.accGroups = 15)
        else decide (s.accElems = 15)) = true
      · rw [if_pos hcnd] at h0
        have hp : 0 < s.accGroups + s.accElems := by
          split at hcnd
          · have := of_decide_eq_true hcnd; omega
          · have := of_decide_eq_true hcnd; omega
        obtain ⟨f, f1, f2, f3, f4, f5, f6, f7, f8⟩ := flush_enc hc h0 hi hp
        refine ⟨[f], by simpa using f1, by simpa using f2, f4, f5, ?_, ?_, f8⟩
        · rw [f6, f7]; simp
        · have : pending r s0 = [] := by rw [← List.length_eq_zero_iff, pending_length f4, f6, f7]
          simp only [this, blockElems, List.flatMap_cons, List.flatMap_nil, List.append_nil, List.map_nil, f3]
      · rw [if_neg hcnd] at h0
        simp only [Res.ok.injEq] at h0
        subst h0
        exact ⟨[], by simp, by simp, hi, rfl, Bool.eq_false_iff.2 hcnd, by simp [blockElems], rfl⟩
    obtain ⟨frs, k1, k2, k3, k4, k5, k6, k7⟩ := key
    obtain ⟨t1, t2, t3, t4, t5, x, t6, t7⟩ := step_enc k3 (g := g) (by rw [k4]; exact hg) k5 rfl
    have hh := blockLoop_enc hc hr (n := n) (s' := s') (has' := has')
      (s := { (if g = true then { s0 with accGroups := s0.accGroups + 1 }
        else { s0 with accElems := s0.accElems + 1 }) with inIndex := s0.inIndex + 1 }) (has := has || (if g then decide (s.accElems ≠ 0 ∨ s.accGroups = 15) else decide (s.accElems = 15))) (by
        rw [← h]
        cases g <;> rfl) t4 (by rw [t2, k4]; omega)
    obtain ⟨frs', q1, q2, q3, q4, q5, q6, q7⟩ := hh
    refine ⟨frs ++ frs', ?_, ?_, q3, ?_, ?_, ?_, ?_⟩
    · intro f hf
      rcases List.mem_append.1 hf with hf | hf
      · exact k1 f hf
      · exact q1 f hf
    · rw [q2, t1, k2, List.flatMap_append, List.append_assoc]
    · rw [q4, t2, k4]; omega
    · intro _
      exact q5 (.inr t3)
    · rw [← k7, t7, List.take_succ_cons, blockElems, List.flatMap_append, List.map_append, ← blockElems, ← blockElems,
        List.append_assoc, q6, t6, List.append_assoc, List.map_append, ← List.append_assoc, k6, List.map_append,
        List.map_append (l₁ := pending r s)]
      rfl
    · rw [q7, ← k7, t7]; rfl

theorem blockBytes_enc {group : Nat → Res UInt8} {elem : Nat → Res Bytes} {word : Nat → Bytes} {ok : Nat → Prop}
    {back : InElem → Option InElem} (hc : Codes group elem word ok back) {r : Rule} {bits : List Bool}
    (hr : ∀ i (h : i < bits.length), r.isGroup.get i = .ok bits[i]) {n : Nat} {s s' : RuleState} (h : blockBytes group elem r n s = .ok s')
    (hi : LoopInv r bits s) (hn : s.inIndex + n ≤ bits.length) (hg : s.accGroups = 0) (he : s.accElems = 0) :
    ∃ frs : List Fragment, (∀ f ∈ frs, f.Ok ok) ∧ s'.data = s.data ++ Spec.blockBytes word frs ∧
      LoopInv r bits s' ∧ s'.inIndex = s.inIndex + n ∧ s'.accGroups = 0 ∧ s'.accElems = 0 ∧
      (blockElems frs).map back = ((ahead r bits s).take n).map some ∧
      ahead r bits s' = (ahead r bits s).drop n ∧ blockSize frs = n := by
  rw [blockBytes, Res.bind_eq_ok] at h
  obtain ⟨⟨s1, has⟩, h1, h⟩ := h
  simp only at h
  obtain ⟨frs, k1, k2, k3, k4, k5, k6, k7⟩ := blockLoop_enc hc hr h1 hi hn
  have hpe : pending r s = [] := by rw [← List.length_eq_zero_iff, pending_length hi, hg, he]
  rw [hpe, List.nil_append] at k6
  have hlen : ((ahead r bits s).take n).length = n := by
    rw [List.length_take, ahead, merge_length _ _ _ hi.cntG hi.cntE, List.length_drop]
    omega
  have fin : ∀ frs' : List Fragment, (blockElems frs').map back = ((ahead r bits s).take n).map some →
      blockSize frs' = n := by
    intro frs' h'
    have := congrArg List.length h'
    rw [List.length_map, List.length_map, ScannerModel.elems_length, hlen] at this
    exact this
  rcases Nat.eq_zero_or_pos n with rfl | hpos
  · simp only [blockLoop, Res.ok.injEq, Prod.mk.injEq] at h1
    obtain ⟨rfl, rfl⟩ := h1
    rw [if_neg (by omega), if_pos (by rfl)] at h
    simp only [Res.pure_eq, Res.ok.injEq] at h
    subst h
    exact ⟨[], by simp, rfl, ⟨hi.accG, hi.accE, hi.leG, hi.leE, hi.cntG, hi.cntE⟩, rfl, hg, he, by simp [blockElems], by simp [ahead], rfl⟩
  · have hp := k5 (.inl hpos)
    rw [if_pos (by omega)] at h
    obtain ⟨f, f1, f2, f3, f4, f5, f6, f7, f8⟩ := flush_enc hc h k3 hp
    have hel : (blockElems (frs ++ [f])).map back = ((ahead r bits s).take n).map some := by
      rw [blockElems, List.flatMap_append, ← blockElems, List.map_append, ← k6]
      simp only [List.flatMap_cons, List.flatMap_nil, List.append_nil, f3]
    refine ⟨frs ++ [f], ?_, ?_, f4, by rw [f5, k4], f6, f7, hel, by rw [f8, k7], fin _ hel⟩
    · intro x hx
      rcases List.mem_append.1 hx with hx | hx
      · exact k1 x hx
      · rw [List.mem_singleton.1 hx]; exact f1
    · rw [f2, k2, List.append_assoc]
      congr 1
      have : Spec.blockBytes word (frs ++ [f]) = (frs ++ [f]).flatMap (Fragment.bytes word) := by
        cases hh : frs ++ [f] with
        | nil => simp at hh
        | cons a l => rfl
      rw [this, List.flatMap_append]
      simp

theorem ruleBytes_enc {group : Nat → Res UInt8} {elem : Nat → Res Bytes} {word : Nat → Bytes} {ok : Nat → Prop}
    {back : InElem → Option InElem} (hc : Codes group elem word ok back) {r : Rule} {bits : List Bool}
    (hr : RuleOk r bits) {x : Bytes} (h : ruleBytes group elem r = .ok x) :
    ∃ rc : RuleCode, x = rc.bytes word ∧ rc.condition = byte r.condition ∧
      (∀ f ∈ rc.head, f.Ok ok) ∧ (∀ f ∈ rc.body, f.Ok ok) ∧ (∀ f ∈ rc.tail, f.Ok ok) ∧
      blockSize rc.head = r.headLen ∧ blockSize rc.body = r.bodyLen ∧ blockSize rc.tail = r.tailLen ∧
      rc.outs.length = r.output.length ∧ (rc.outs.map InElem.one).map back = (r.output.map InElem.one).map some ∧
      rc.elems.map (fun p => (p.1, back p.2)) =
        (blocks r).zip ((merge bits r.inGroups r.inElems).map some) := by
  simp only [ruleBytes, ite_panic, Res.bind_eq_ok, Res.pure_eq, Res.ok.injEq] at h
  obtain ⟨h1, _, _, out, ho, s1, hs1, s2, hs2, s3, hs3, rfl⟩ := h
  have hlen := hr.len
  obtain ⟨vs, v1, v2, v3, v4⟩ := elems_enc hc ho
  have hi : LoopInv r bits { data := [byte r.condition, byte r.headLen, byte r.bodyLen, byte r.tailLen,
    byte r.output.length] ++ out.flatten } :=
    ⟨by simp, by simp, by simp, by simp, by simpa using hr.groups, by simpa using hr.elems⟩
  obtain ⟨f1, a1, a2, a3, a4, a5, a6, a7, a8, a9⟩ := blockBytes_enc hc hr.rep hs1 hi (by simp only []; omega) rfl rfl
  simp only [Nat.zero_add] at a4
  obtain ⟨f2, b1, b2, b3, b4, b5, b6, b7, b8, b9⟩ := blockBytes_enc hc hr.rep hs2 a3 (by omega) a5 a6
  obtain ⟨f3, c1, c2, c3, c4, c5, c6, c7, c8, c9⟩ := blockBytes_enc hc hr.rep hs3 b3 (by omega) b5 b6
  have e0 : ahead r bits { data := [byte r.condition, byte r.headLen, byte r.bodyLen, byte r.tailLen,
    byte r.output.length] ++ out.flatten } = merge bits r.inGroups r.inElems := by simp [ahead]
  rw [e0] at a7 a8
  have hm := merge_length _ _ _ hr.groups hr.elems
  rw [b8, a8] at c7
  rw [a8] at b7
  generalize merge bits r.inGroups r.inElems = es at a7 b7 c7 hm
  refine ⟨⟨byte r.condition, vs, f1, f2, f3⟩, ?_, rfl, a1, b1, c1, a9, b9, c9, v1, v4, ?_⟩
  · rw [c2, b2, a2, RuleCode.bytes, a9, b9, c9, v3, v1]
    simp only [byte_ofNat, List.append_assoc]
  · have z : ∀ (n k : Nat) (l : List (Option InElem)), l.length = n → (List.replicate n k).zip l = l.map (k, ·) := by
      intro n k l hl
      subst hl
      induction l with
      | nil => rfl
      | cons a l ih => rw [List.length_cons, List.replicate_succ, List.zip_cons_cons, ih, List.map_cons]
    have hsplit : es.map some = (es.take r.headLen).map some ++ ((es.drop r.headLen).take r.bodyLen).map some ++
        (((es.drop r.headLen).drop r.bodyLen).take r.tailLen).map some := by
      rw [← List.map_append, ← List.map_append]
      congr 1
      rw [List.take_of_length_le (l := (es.drop r.headLen).drop r.bodyLen)
        (by rw [List.length_drop, List.length_drop]; omega), List.append_assoc, List.take_append_drop,
        List.take_append_drop]
    rw [hsplit, blocks, List.zip_append, List.zip_append, z, z, z, ← a7, ← b7, ← c7]
    · simp [RuleCode.elems, Function.comp_def]
    · simp; omega
    · simp; omega
    · simp; omega
    · simp; omega
    · simp; omega

/-! ## Rules that are added -/

theorem bool_push {l l' : BoolList} {bits : List Bool} {v : Bool} (h : C02.Rep l bits) (hp : l.push v = .ok l') :
    C02.Rep l' (bits ++ [v]) := by
  obtain ⟨l1, h1, h2⟩ := C02.push_rep h v
  rw [h1, Res.ok.injEq] at hp
  rwa [← hp]

theorem empty_rep : C02.Rep ⟨0, []⟩ [] := ⟨rfl, rfl, by simp⟩

theorem pushFalse_rep : ∀ {n : Nat} {l l' : BoolList} {bits : List Bool}, C02.Rep l bits → pushFalse n l = .ok l' →
    C02.Rep l' (bits ++ List.replicate n false)
  | 0, l, l', bits, h, hp => by
    simp only [pushFalse, Res.ok.injEq] at hp
    subst hp; simpa using h
  | n + 1, l, l', bits, h, hp => by
    rw [pushFalse, Res.bind_eq_ok] at hp
    obtain ⟨l1, h1, hp⟩ := hp
    have := pushFalse_rep (bool_push h h1) hp
    rwa [List.append_assoc] at this

theorem merge_ones : ∀ l : List Nat, merge (List.replicate l.length false) [] l = l.map .one
  | [] => rfl
  | a :: l => by rw [List.length_cons, List.replicate_succ, merge, merge_ones l, List.map_cons]

theorem merge_snoc_set : ∀ {bits : List Bool} {gs es : List Nat} (u : Nat), gs.length = bits.count true →
    es.length = bits.count false → merge (bits ++ [true]) (gs ++ [u]) es = merge bits gs es ++ [.set u]
  | [], gs, es, u, h1, h2 => by
    simp only [List.count_nil, List.length_eq_zero_iff] at h1 h2
    subst h1 h2; rfl
  | true :: bits, [], es, u, h, _ => by simp at h
  | true :: bits, g :: gs, es, u, h, h' => by
    rw [List.cons_append, List.cons_append, merge, merge_snoc_set u (by simpa using h) (by simpa using h'), merge]; rfl
  | false :: bits, gs, [], u, _, h => by simp at h
  | false :: bits, gs, e :: es, u, h, h' => by
    rw [List.cons_append, merge, merge_snoc_set u (by simpa using h) (by simpa using h'), merge]; rfl

theorem merge_snoc_one : ∀ {bits : List Bool} {gs es : List Nat} (u : Nat), gs.length = bits.count true →
    es.length = bits.count false → merge (bits ++ [false]) gs (es ++ [u]) = merge bits gs es ++ [.one u]
  | [], gs, es, u, h1, h2 => by
    simp only [List.count_nil, List.length_eq_zero_iff] at h1 h2
    subst h1 h2; rfl
  | true :: bits, [], es, u, h, _ => by simp at h
  | true :: bits, g :: gs, es, u, h, h' => by
    rw [List.cons_append, merge, merge_snoc_one u (by simpa using h) (by simpa using h'), merge]; rfl
  | false :: bits, gs, [], u, _, h => by simp at h
  | false :: bits, gs, e :: es, u, h, h' => by
    rw [List.cons_append, List.cons_append, merge, merge_snoc_one u (by simpa using h) (by simpa using h'), merge]; rfl

theorem ruleInputs_ok {b : Builder} : ∀ {us : List Nat} {l l' : BoolList} {es gs es' gs' : List Nat}
    {bits : List Bool}, b.ruleInputs us l es gs = .ok (l', es', gs') → C02.Rep l bits → gs.length = bits.count true →
    es.length = bits.count false → ∃ bits', C02.Rep l' bits' ∧ gs'.length = bits'.count true ∧
      es'.length = bits'.count false ∧ bits'.length = bits.length + us.length ∧
      merge bits' gs' es' = merge bits gs es ++ us.map b.inElem
  | [], l, l', es, gs, es', gs', bits, h, hr, hg, he => by
    simp only [ruleInputs, Res.ok.injEq, Prod.mk.injEq] at h
    obtain ⟨rfl, rfl, rfl⟩ := h
    exact ⟨bits, hr, hg, he, rfl, by simp⟩
  | u :: us, l, l', es, gs, es', gs', bits, h, hr, hg, he => by
    rw [ruleInputs] at h
    split at h
    · rename_i hu
      rw [Res.bind_eq_ok] at h
      obtain ⟨l1, h1, h⟩ := h
      obtain ⟨bits', k1, k2, k3, k4, k5⟩ := ruleInputs_ok h (bool_push hr h1) (by simpa using hg) (by simpa using he)
      refine ⟨bits', k1, k2, k3, by rw [k4]; simp; omega, ?_⟩
      rw [k5, merge_snoc_one u hg he, List.map_cons, inElem, if_pos hu, List.append_assoc]; rfl
    · rename_i hu
      split at h
      · simp at h
      · rw [Res.bind_eq_ok] at h
        obtain ⟨l1, h1, h⟩ := h
        obtain ⟨bits', k1, k2, k3, k4, k5⟩ := ruleInputs_ok h (bool_push hr h1) (by simpa using hg) (by simpa using he)
        refine ⟨bits', k1, k2, k3, by rw [k4]; simp; omega, ?_⟩
        rw [k5, merge_snoc_set u hg he, List.map_cons, inElem, if_neg hu, List.append_assoc]; rfl

theorem addGlyphRule_ok {b b' : Builder} {hl bl tl : UInt8} {input out : List Nat}
    (h : b.addGlyphRule hl bl tl input out = .ok b') : ∃ r bits, b' = { b with glyphRules := b.glyphRules ++ [r] } ∧
      RuleOk r bits ∧ r.headLen = hl.toNat ∧ r.bodyLen = bl.toNat ∧ r.tailLen = tl.toNat ∧ r.output = out ∧
      r.condition = 255 ∧ merge bits r.inGroups r.inElems = input.map b.inElem := by
  rw [addGlyphRule] at h
  simp only [ite_err, Res.bind_eq_ok, Res.pure_eq, Res.ok.injEq] at h
  obtain ⟨h1, h2, _, ⟨l, es, gs⟩, hi, rfl⟩ := h
  obtain ⟨bits, k1, k2, k3, k4, k5⟩ := ruleInputs_ok hi empty_rep rfl rfl
  refine ⟨_, bits, rfl, ⟨fun i hi => bool_get k1 hi, ?_, ?_, k2, k3⟩, rfl, rfl, rfl, rfl, rfl, by simpa [merge] using k5⟩
  · simp only [List.length_nil, Nat.zero_add] at k4
    rw [k4]
    simp only [u8] at h1 h2
    have := hl.toNat_lt
    have := bl.toNat_lt
    have := tl.toNat_lt
    simp only []
    omega
  · simp only [List.length_nil, Nat.zero_add] at k4
    simp only [u8] at h1 h2
    omega

theorem addSimpleUtf8Rule_ok {b b' : Builder} {c : Nat} {seq : List Nat}
    (h : b.addSimpleUtf8Rule c seq = .ok b') : ∃ r bits, b' = { b with utf8Rules := b.utf8Rules ++ [r] } ∧
      RuleOk r bits ∧ r.headLen = 0 ∧ r.bodyLen = seq.length ∧ r.tailLen = 0 ∧ r.output = [c] ∧
      r.condition = 255 ∧ 0 < seq.length ∧ merge bits r.inGroups r.inElems = seq.map .one := by
  rw [addSimpleUtf8Rule] at h
  simp only [ite_err, Res.bind_eq_ok, Res.pure_eq, Res.ok.injEq] at h
  obtain ⟨h1, h2, l, hp, rfl⟩ := h
  have := pushFalse_rep empty_rep hp
  simp only [List.nil_append] at this
  refine ⟨_, _, rfl, ⟨fun i hi => bool_get this hi, by simp, by simp; omega, by simp [List.count_replicate], by simp⟩, rfl, rfl, rfl, rfl, rfl,
    by omega, merge_ones seq⟩

theorem merge_one_mem : ∀ {bits : List Bool} {gs es : List Nat} {v : Nat}, (.one v : InElem) ∈ merge bits gs es → v ∈ es
  | [], _, _, v, h => by simp [merge] at h
  | true :: bits, [], es, v, h => by simp [merge] at h
  | true :: bits, g :: gs, es, v, h => by
    rw [merge, List.mem_cons] at h
    rcases h with h | h
    · simp at h
    · exact merge_one_mem h
  | false :: bits, gs, [], v, h => by simp [merge] at h
  | false :: bits, gs, e :: es, v, h => by
    rw [merge, List.mem_cons] at h
    rcases h with h | h
    · simp only [InElem.one.injEq] at h; simp [h]
    · exact List.mem_cons_of_mem _ (merge_one_mem h)

theorem zip_some {l : List (Nat × InElem)} : ∀ {ks : List Nat} {es : List InElem},
    l.map (fun p => (p.1, some p.2)) = ks.zip (es.map some) → l = ks.zip es := by
  intro ks es h
  have : ks.zip (es.map some) = (ks.zip es).map (fun p => (p.1, some p.2)) := by
    rw [List.zip_map_right]; rfl
  rw [this] at h
  refine List.map_inj_right ?_ |>.1 h
  rintro ⟨a, b⟩ ⟨c, d⟩ e
  simp only [Prod.mk.injEq, Option.some.injEq] at e
  rw [e.1, e.2]

/-! ## The codes of the two kinds -/

theorem setIndex_iff {b : Builder} (hn : b.glyphSetsOrder.Nodup) (hl : b.glyphSetsOrder.length ≤ 65536)
    {u i : Nat} : b.setIndex u = some i ↔ b.glyphSetsOrder[i]? = some u := by
  have := glyphIndex_iff (b := { b with glyphOrder := b.glyphSetsOrder }) (u := u) (i := i) hn hl
  exact this

theorem glyph_codes {b : Builder} (hn : b.glyphOrder.Nodup) (hl : b.glyphOrder.length ≤ 56789)
    (hs : b.glyphSetsOrder.Nodup) (hsl : b.glyphSetsOrder.length ≤ 256) :
    Codes b.groupRef b.glyphElem word16 (· < 56789) b.glyphBack where
  group u y h := by
    rw [groupRef] at h
    cases hu : b.setIndex u with
    | none => rw [hu] at h; simp at h
    | some i =>
      rw [hu] at h
      simp only [Res.ok.injEq] at h
      have h2 := (setIndex_iff hs (by omega)).1 hu
      have h3 := (List.getElem?_eq_some_iff.1 h2).1
      exact ⟨i, by omega, by rw [← h, byte_ofNat], by rw [glyphBack, h2]; rfl⟩
  elem u y h := by
    rw [glyphElem, Res.bind_eq_ok] at h
    obtain ⟨i, hi, h⟩ := h
    simp only [Res.pure_eq, Res.ok.injEq] at h
    have h2 := (glyphIndexE_iff hn (by omega)).1 hi
    have h3 := (List.getElem?_eq_some_iff.1 h2).1
    exact ⟨i, by omega, by rw [← h, word16_eq], by rw [glyphBack, h2]; rfl⟩

theorem rune_codes (P : Nat → Prop) (hP : ∀ u, P u) : Codes noGroup runeElem word32 P some where
  group u y h := by simp [noGroup] at h
  elem u y h := by
    simp only [runeElem, Res.ok.injEq] at h
    exact ⟨u, hP u, by rw [← h, word32_eq], rfl⟩

end BuilderModel.Builder
