import Verif.Lemmas.Sort
import Verif.Props.Permute

/-!
# Sorting: C10
-/

namespace Nimble
open Obj
variable {V : Type}

/-- `cmp x y`: value `x` may come before value `y` (ascending, or descending with `reverse`). -/
def MayPrecede (le : V → V → Bool) (reverse : Bool) (x y : V) : Prop :=
  if reverse then le y x = true else le x y = true

/-- Element `i` (of the sorted axis) must come before element `j`: by the first key in which they
differ, and by their original position when no key tells them apart. -/
def LexBefore (le : V → V → Bool) (reverse : Bool) : List (List V) → Nat → Nat → Prop
  | [], i, j => i < j
  | key :: keys, i, j =>
    ∀ x y, key[i]? = some x → key[j]? = some y →
      MayPrecede le reverse x y ∧ (MayPrecede le reverse y x → LexBefore le reverse keys i j)

theorem mayPrecede_iff (le : V → V → Bool) (reverse : Bool) (x y : V) :
    MayPrecede le reverse x y ↔ dirLe le reverse x y = true := by
  unfold MayPrecede dirLe; cases reverse <;> simp

/-- One key: sorting by it succeeds when it resolves, and refines the order so far. -/
theorem sortByOne_step {le : V → V → Bool} (hle : TotalOrd le) {reverse : Bool} {o r : Obj V} (h : o.WF)
    {ax : Ax} {l : List Nat} (hp : l.Perm (List.range (o.axis ax).len))
    (hr : SelectedSpec o r ax l) {keys : List (List V)}
    (hl : l.Pairwise (LexBefore le reverse keys)) {id : Ident} {j : Nat}
    (hj : (o.axis ax.off).getIndex id = .ok (j : Int)) :
    ∃ q l', sortByOne le reverse r ax id = .ok q ∧ l'.Perm (List.range (o.axis ax).len) ∧
      SelectedSpec o q ax l' ∧
      l'.Pairwise (LexBefore le reverse (o.vector ax.off j :: keys)) := by
  have hb := perm_bound hp
  have hjl : j < (o.axis ax.off).len := by
    have := getIndex_bound (h.axisOk ax.off) hj; omega
  have hj' : (r.axis ax.off).getIndex id = .ok (j : Int) :=
    (getIndex_congr (hr.wf.axisOk _) (h.axisOk _) hr.offLen hr.offNames id j).2 hj
  have hvec := vector_off_select h hb hr.data hjl
  have hvl : (r.vector ax.off j).length = (r.axis ax).len := by
    have := hr.wf.length_vector ax.off (i := j) (by rw [hr.offLen]; exact hjl)
    cases ax <;> exact this
  obtain ⟨hs1, hs2⟩ := sortOrder_spec hle reverse (r.vector ax.off j)
  have hs1' : (sortOrder le reverse (r.vector ax.off j)).Perm (List.range (r.axis ax).len) := by
    rw [← hvl]; exact hs1
  obtain ⟨q, hq, hqs⟩ := permute_ints hr.wf ax hs1'
  have hll : l.length = (o.axis ax).len := by simpa using hp.length_eq
  have hbs : ∀ i ∈ sortOrder le reverse (r.vector ax.off j), i < l.length := by
    intro i hi
    have := perm_bound hs1' i hi
    rw [hr.len] at this; exact this
  refine ⟨q, pick l (sortOrder le reverse (r.vector ax.off j)), ?_, ?_, ?_, ?_⟩
  · unfold sortByOne
    simp only [hj', bind, Except.bind]
    rw [show ((j : Int)).toNat = j by omega]
    exact hq
  · refine (pick_perm ?_).trans hp
    rw [← hr.len]; exact hs1'
  · exact SelectedSpec.trans h hr hqs hb hbs
  · unfold pick
    rw [List.pairwise_filterMap]
    refine hs2.imp_of_mem ?_
    intro a b ha hb' hab i hi i' hi' x y hx hy
    have ha1 := hbs a ha
    have hb1 := hbs b hb'
    have hbv : ∀ i ∈ l, i < (o.vector ax.off j).length := by
      rw [h.length_vector ax.off hjl]
      cases ax <;> exact hb
    have e1 : (r.vector ax.off j)[a]? = some x := by
      rw [hvec, getElem?_pick hbv, hi, Option.bind_some, hx]
    have e2 : (r.vector ax.off j)[b]? = some y := by
      rw [hvec, getElem?_pick hbv, hi', Option.bind_some, hy]
    obtain ⟨h1, h2⟩ := hab x y e1 e2
    refine ⟨(mayPrecede_iff ..).2 h1, fun h3 => ?_⟩
    have hlt := h2 ((mayPrecede_iff ..).1 h3)
    rw [List.getElem?_eq_getElem ha1, Option.some.injEq] at hi
    rw [List.getElem?_eq_getElem hb1, Option.some.injEq] at hi'
    rw [← hi, ← hi']
    exact List.pairwise_iff_getElem.1 hl a b ha1 hb1 hlt

theorem sortKeys_spec {le : V → V → Bool} (hle : TotalOrd le) {reverse : Bool} {o : Obj V} (h : o.WF)
    {ax : Ax} (ids : List Ident) (js : List Nat)
    (hj : ids.map (fun id => (o.axis ax.off).getIndex id) =
      js.map (fun (i : Nat) => (.ok (i : Int) : Res Int)))
    {r : Obj V} {l : List Nat} (hp : l.Perm (List.range (o.axis ax).len))
    (hr : SelectedSpec o r ax l) {keys : List (List V)}
    (hl : l.Pairwise (LexBefore le reverse keys)) :
    ∃ q l', sortKeys le reverse ax r ids = (q, .ok ()) ∧ l'.Perm (List.range (o.axis ax).len) ∧
      SelectedSpec o q ax l' ∧
      l'.Pairwise (LexBefore le reverse ((js.map (fun j => o.vector ax.off j)).reverse ++ keys)) := by
  induction ids generalizing js r l keys with
  | nil =>
    cases js with
    | nil => exact ⟨r, l, rfl, hp, hr, by simpa using hl⟩
    | cons j js => simp at hj
  | cons id ids ih =>
    cases js with
    | nil => simp at hj
    | cons j js =>
      simp only [List.map_cons, List.cons.injEq] at hj
      obtain ⟨q, l', hq, hp', hqs, hl'⟩ := sortByOne_step hle h hp hr hl hj.1
      obtain ⟨q2, l2, h1, h2, h3, h4⟩ := ih js hj.2 hp' hqs hl'
      refine ⟨q2, l2, ?_, h2, h3, ?_⟩
      · simp only [sortKeys, hq]; exact h1
      · simpa using h4

/-- C10. `sort(by=[k1,...,km])` with keys that denote features (points) rearranges the points
(features), names attached, so that they are in lexicographic order of the keys' values, and those
that agree in all keys keep their order – ascending, or descending with `reverse`. -/
theorem C10_sort_lexicographic_stable {le : V → V → Bool} (hle : TotalOrd le) (reverse : Bool)
    {o : Obj V} (h : o.WF) (ax : Ax) (by' : List Ident) (js : List Nat)
    (hj : by'.map (fun id => (o.axis ax.off).getIndex id) =
      js.map (fun (i : Nat) => (.ok (i : Int) : Res Int))) :
    ∃ r l, o.sortBy le reverse ax by' = (r, .ok ()) ∧ Rearranged o r ax l ∧
      l.Pairwise (LexBefore le reverse (js.map (fun j => o.vector ax.off j))) := by
  have hid : SelectedSpec o o ax (List.range (o.axis ax).len) := by
    refine ⟨h, (selData_range h ax).symm, by simp, ?_, rfl, rfl, rfl, rfl⟩
    rw [pick_range_of_eq _ (h.axisOk ax).length_getNames.symm]
  obtain ⟨q, l, h1, h2, h3, h4⟩ := sortKeys_spec hle (reverse := reverse) h by'.reverse js.reverse
    (by simp only [List.map_reverse, hj]) (List.Perm.refl _) hid (keys := [])
    (by simpa [LexBefore] using List.pairwise_lt_range)
  refine ⟨q, l, h1, rearranged_of_selected h h2 h3, ?_⟩
  simpa using h4

/-- C10. A sort with a key that denotes nothing is refused. -/
theorem C10_sort_refuses_unknown_key {le : V → V → Bool} (hle : TotalOrd le) (reverse : Bool)
    {o r : Obj V} (h : o.WF) (ax : Ax) (by' : List Ident)
    (hs : o.sortBy le reverse ax by' = (r, .ok ())) :
    ∀ id ∈ by', ∃ j : Nat, (o.axis ax.off).getIndex id = .ok (j : Int) := by
  suffices H : ∀ (ids : List Ident) (q : Obj V) (l : List Nat),
      l.Perm (List.range (o.axis ax).len) → SelectedSpec o q ax l →
      l.Pairwise (LexBefore le reverse []) ∨ True →
      sortKeys le reverse ax q ids = (r, .ok ()) →
      ∀ id ∈ ids, ∃ j : Nat, (o.axis ax.off).getIndex id = .ok (j : Int) by
    have hid : SelectedSpec o o ax (List.range (o.axis ax).len) := by
      refine ⟨h, (selData_range h ax).symm, by simp, ?_, rfl, rfl, rfl, rfl⟩
      rw [pick_range_of_eq _ (h.axisOk ax).length_getNames.symm]
    intro id hid'
    exact H by'.reverse o _ (List.Perm.refl _) hid (Or.inr trivial) hs id (by simpa using hid')
  intro ids
  induction ids with
  | nil => intro _ _ _ _ _ _ id hid; simp at hid
  | cons k ks ih =>
    intro q l hp hq _ hrun id hid
    simp only [sortKeys] at hrun
    cases hone : sortByOne le reverse q ax k with
    | error e => simp [hone] at hrun
    | ok q' =>
      simp only [hone] at hrun
      have hk : ∃ j : Nat, (o.axis ax.off).getIndex k = .ok (j : Int) := by
        unfold sortByOne at hone
        cases hg : (q.axis ax.off).getIndex k with
        | error e => simp [hg, bind, Except.bind] at hone
        | ok i =>
          have hb := getIndex_bound (hq.wf.axisOk ax.off) hg
          refine ⟨i.toNat, ?_⟩
          rw [← getIndex_congr (hq.wf.axisOk _) (h.axisOk _) hq.offLen hq.offNames, hg]
          congr 1; omega
      rcases List.mem_cons.1 hid with rfl | hid'
      · exact hk
      · obtain ⟨j, hj⟩ := hk
        -- the order so far satisfies the trivial key list after forgetting the keys
        have hvec := hq.wf
        obtain ⟨q2, l2, h1, h2, h3⟩ : ∃ q2 l2, sortByOne le reverse q ax k = .ok q2 ∧
            l2.Perm (List.range (o.axis ax).len) ∧ SelectedSpec o q2 ax l2 := by
          have hidq : SelectedSpec q q ax (List.range (q.axis ax).len) := by
            refine ⟨hq.wf, (selData_range hq.wf ax).symm, by simp, ?_, rfl, rfl, rfl, rfl⟩
            rw [pick_range_of_eq _ (hq.wf.axisOk ax).length_getNames.symm]
          have hj' := (getIndex_congr (hq.wf.axisOk _) (h.axisOk _) hq.offLen hq.offNames k j).2 hj
          obtain ⟨q2, l2, a1, a2, a3, _⟩ := sortByOne_step hle (reverse := reverse) hq.wf
            (List.Perm.refl _) hidq (keys := [])
            (by simpa [LexBefore] using List.pairwise_lt_range) hj'
          refine ⟨q2, pick l l2, a1, ?_, ?_⟩
          · have : l2.Perm (List.range l.length) := by rw [← hq.len]; exact a2
            exact (pick_perm this).trans hp
          · refine SelectedSpec.trans h hq a3 (perm_bound hp) ?_
            intro i hi
            have := perm_bound a2 i hi
            rw [hq.len] at this; exact this
        rw [hone] at h1; cases h1
        exact ih q' l2 h2 h3 (Or.inr trivial) hrun id hid'

/-- C10. `sort()` without keys orders by name; it is refused exactly when some name is missing. -/
theorem C10_sort_by_names {nle : String → String → Bool} (hle : TotalOrd nle) (reverse : Bool)
    {o : Obj V} (h : o.WF) (ax : Ax) :
    ((o.axis ax).anyDefaultNames = true →
      o.sortByNames nle reverse ax = .error .InvalidArgumentValue) ∧
    ((o.axis ax).anyDefaultNames = false → ∃ r l, o.sortByNames nle reverse ax = .ok r ∧
      Rearranged o r ax l ∧
      (∀ k < (r.axis ax).len, ∃ s, (r.axis ax).getNames[k]? = some (some s)) ∧
      (r.axis ax).getNames.reduceOption.Pairwise (fun x y => MayPrecede nle reverse x y)) := by
  constructor
  · intro hd; simp [sortByNames, hd]
  · intro hd
    obtain ⟨t, ht⟩ : ∃ t, (o.axis ax).tbl = some t := by
      cases ht : (o.axis ax).tbl with
      | none => simp [AxisSt.anyDefaultNames, ht] at hd
      | some t => exact ⟨t, rfl⟩
    have hok := h.axisOk ax
    have hnone : none ∉ (o.axis ax).getNames := by
      intro hc
      have := hok.consistent.anyDefault_iff.2 (Or.inl (by
        rw [List.any_eq_true]; exact ⟨none, hc, rfl⟩))
      rw [hd] at this; cases this
    -- the names as strings
    obtain ⟨ss, hss⟩ : ∃ ss : List String, (o.axis ax).getNames = ss.map some := by
      generalize (o.axis ax).getNames = l at hnone
      induction l with
      | nil => exact ⟨[], rfl⟩
      | cons x l ih =>
        simp only [List.mem_cons, not_or] at hnone
        obtain ⟨ss, rfl⟩ := ih hnone.2
        cases x with
        | none => exact absurd rfl hnone.1
        | some s => exact ⟨s :: ss, rfl⟩
    have hfm : (o.axis ax).getNames.filterMap id = ss := by
      rw [hss, List.filterMap_map]; simp
    have hlen : ss.length = (o.axis ax).len := by
      have := hok.length_getNames; rw [hss] at this; simpa using this
    have hsd := hle.dir reverse
    let sorted := ss.mergeSort (fun x y => if reverse then nle y x else nle x y)
    have hperm : sorted.Perm ss := List.mergeSort_perm _ _
    have hsorted : sorted.Pairwise (fun x y => dirLe nle reverse x y = true) :=
      List.pairwise_mergeSort (le := dirLe nle reverse) hsd.trans hsd.total ss
    have hnd : ss.Nodup := by
      have := (hok t ht).reduceOption_nodup
      rw [← AxisSt.getNames_of_some ht, hss] at this
      simpa [reduceOption_map_some] using this
    -- the order
    have hidx : ∀ s ∈ ss, (o.axis ax).getIndex (.str s) = .ok ((ss.idxOf s : Nat) : Int) := by
      intro s hs
      rw [← hok.getName_iff, hss, List.getElem?_map,
        List.getElem?_eq_getElem (List.idxOf_lt_length_of_mem hs), List.getElem_idxOf]
      rfl
    have hmap : (sorted.map Ident.str).map (fun id => (o.axis ax).getIndex id) =
        (sorted.map (fun s => ss.idxOf s)).map (fun (i : Nat) => (.ok (i : Int) : Res Int)) := by
      rw [List.map_map, List.map_map]
      apply List.map_congr_left
      intro s hs
      exact hidx s (hperm.mem_iff.1 hs)
    have hps : (sorted.map (fun s => ss.idxOf s)).Perm (List.range (o.axis ax).len) := by
      refine perm_range_of_nodup ?_ ?_ ?_
      · refine List.Nodup.map_on ?_ (hperm.nodup_iff.2 hnd)
        intro x hx y hy he
        exact (List.idxOf_inj (hperm.mem_iff.1 hx)).1 he
      · intro i hi
        obtain ⟨s, hs, rfl⟩ := List.mem_map.1 hi
        rw [← hlen]; exact List.idxOf_lt_length_of_mem (hperm.mem_iff.1 hs)
      · rw [List.length_map, hperm.length_eq, hlen]
    obtain ⟨r, hr⟩ := (C09_permute_iff h ax (sorted.map .str)).2 ⟨_, hmap, hps⟩
    obtain ⟨l, hl, hre⟩ := C09_permute_lines h hr
    have hll : l = sorted.map (fun s => ss.idxOf s) := by
      rw [hmap] at hl
      have hinj : Function.Injective (fun (i : Nat) => (.ok (i : Int) : Res Int)) := by
        intro a b hab; simp only [Except.ok.injEq] at hab; omega
      exact (List.map_injective_iff.2 hinj hl).symm
    have hnames : (r.axis ax).getNames = sorted.map some := by
      apply List.ext_getElem?
      intro k
      by_cases hk : k < (r.axis ax).len
      · have h1 := getElem?_lines r ax hk
        rw [hre.lines k] at h1
        have hk2 : k < sorted.length := by
          rw [hperm.length_eq, hlen, ← hre.len]; exact hk
        rw [hll, List.getElem?_map, List.getElem?_eq_getElem hk2, Option.map_some, Option.bind_some] at h1
        have hm : sorted[k] ∈ ss := hperm.mem_iff.1 (List.getElem_mem hk2)
        have hlt : ss.idxOf sorted[k] < (o.axis ax).len := by
          rw [← hlen]; exact List.idxOf_lt_length_of_mem hm
        rw [getElem?_lines o ax hlt, Option.some.injEq, Prod.mk.injEq] at h1
        have h2 := h1.1
        rw [hss, List.getElem?_map, List.getElem?_eq_getElem (List.idxOf_lt_length_of_mem hm),
          List.getElem_idxOf, Option.map_some, Option.join_some] at h2
        rw [List.getElem?_map, List.getElem?_eq_getElem hk2, Option.map_some, h2]
        have hk3 : k < (r.axis ax).getNames.length := by
          rw [(hre.wf.axisOk ax).length_getNames]; exact hk
        rw [List.getElem?_eq_getElem hk3]; rfl
      · rw [List.getElem?_eq_none (by rw [(hre.wf.axisOk ax).length_getNames]; omega),
          List.getElem?_eq_none (by rw [List.length_map, hperm.length_eq, hlen, ← hre.len]; omega)]
    refine ⟨r, l, ?_, hre, ?_, ?_⟩
    · unfold sortByNames
      rw [hd]
      simp only [Bool.false_eq_true, if_false, hfm]
      exact hr
    · intro k hk
      rw [hnames, List.getElem?_map]
      have hk2 : k < sorted.length := by
        rw [hperm.length_eq, hlen, ← hre.len]; exact hk
      exact ⟨sorted[k], by rw [List.getElem?_eq_getElem hk2]; rfl⟩
    · rw [hnames, reduceOption_map_some]
      exact hsorted.imp (fun h => (mayPrecede_iff ..).2 h)

/-- C10/C46 (violated). A sort that is refused because of an unknown key is not without effect:
the keys after it have already been applied. -/
theorem C46_refused_sort_violated :
    ∃ (o : Obj Int) (e : Err) (r : Obj Int), o.WF ∧
      o.sortBy (fun a b => decide (a ≤ b)) false .point [.str "bad", .int 0] = (r, .error e) ∧
      r.lines .point ≠ o.lines .point := by
  refine ⟨⟨[[2], [1]], ⟨2, none⟩, ⟨1, none⟩⟩, .KeyError, ⟨[[1], [2]], ⟨2, none⟩, ⟨1, none⟩⟩,
    ⟨rfl, by decide, none_ok _, none_ok _⟩, ?_, by decide⟩
  simp [sortBy, sortKeys, sortByOne, sortOrder, Obj.axis, Ax.off, AxisSt.getIndex, AxisSt.getIndexByName,
    Obj.vector, bind, Except.bind, permute, resolveIdents, applyOrder, permuteData, selData, pick,
    List.mergeSort, List.MergeSort.Internal.splitInTwo, List.splitAt, List.splitAt.go, List.merge, pure, Except.pure, Except.map]

/-! ### The hypotheses are met -/

theorem intLe_totalOrd : TotalOrd (fun a b : Int => decide (a ≤ b)) where
  trans := by intro a b c h1 h2; simp only [decide_eq_true_eq] at *; omega
  total := by intro a b; simp only [Bool.or_eq_true, decide_eq_true_eq]; omega

example : [Ident.str "f", .int (-1)].map (fun id => (exObj.axis Ax.point.off).getIndex id) =
    [0, 1].map (fun (i : Nat) => (.ok (i : Int) : Res Int)) := by decide

end Nimble
