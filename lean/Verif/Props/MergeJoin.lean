import Verif.Props.Merge

/-!
# C19: the theorems about `merge`
-/

namespace Nimble
namespace Obj
variable {V : Type} [DecidableEq V]

/-! ## Merging on point names -/

theorem getD_map {A B : Type} {l : List A} {d : A} {e : B} (f : A → B) {i : Nat} (hi : i < l.length) :
    (l.map f).getD i e = f (l.getD i d) := by
  simp [List.getD_eq_getElem?_getD, hi]

theorem bind_withKeys (m : MergeVals V) (names : List (Option String)) (add : Nat)
    (rows : List (List V)) (p : Option Nat) (f : List V → List V) :
    p.bind (fun i => (withKeys m names add (rows.map f))[i]?) =
      ((p.bind (fun i => rows[i]?)).map f).map (ptKey m names add (p.getD 0) :: ·) := by
  cases p with
  | none => rfl
  | some i => simp [getElem?_withKeys, List.getElem?_map]

theorem front_names (m : MergeVals V) {L R : Obj V} (hL : L.WF) (hR : R.WF)
    (hpl : L.pts.namesCreated) (hpr : R.pts.namesCreated) (hfl : L.fts.namesCreated)
    (hfr : R.fts.namesCreated) (hnL : 0 < L.pts.len) (hnR : 0 < R.pts.len)
    (point feature : MergeMode) (hord : feature = .intersection → NamesInOrder L.fts) :
    (¬ Conflict m.nan L R (nameMates L.pts.getNames R.pts.getNames) →
      ∃ r, L.mergeFront m R point feature none = (r, .ok ()) ∧
        Merged m.nan L R (joinPts point L R) (joinFts feature L R) r ∧
        r.pts.getNames = (joinPts point L R).map (nameOfPair L.pts.getNames R.pts.getNames)) ∧
    (Conflict m.nan L R (nameMates L.pts.getNames R.pts.getNames) →
      (L.mergeFront m R point feature none).2 = .error .InvalidArgumentValue) := by
  obtain ⟨tpl, htpl⟩ := Option.isSome_iff_exists.1 hpl
  obtain ⟨tpr, htpr⟩ := Option.isSome_iff_exists.1 hpr
  obtain ⟨tfl, htfl⟩ := Option.isSome_iff_exists.1 hfl
  obtain ⟨tfr, htfr⟩ := Option.isSome_iff_exists.1 hfr
  have hF := matching_of hL.fts hR.fts htfl htfr
  have hP := matching_of hL.pts hR.pts htpl htpr
  have hlL := hL.fts.length_getNames
  have hlR := hR.fts.length_getNames
  have hpL := hL.pts.length_getNames
  have hpR := hR.pts.length_getNames
  have hcheck : L.mergeCheck m.nan R none = .ok none := by
    simp [mergeCheck, hpl, hpr, hfl, hfr]
  have hasc : feature = .intersection → idxOfNames L.fts (matchingNames L.fts R.fts) =
      (List.range L.fts.getNames.length).filter
        (fun i => decide (i ∈ idxOfNames L.fts (matchingNames L.fts R.fts))) := by
    intro hf
    exact ascending_of hF (pairwise_idxOfNames hL.fts htfl htfr (hord hf))
  have hprep := prepNames_eq m L.pts.getNames R.pts.getNames feature L.data R.data hF.len
  obtain ⟨sl1, sl2, sl3, sl4⟩ := sliced_of hF feature
  have hpoints : joinPts point L R = joined point L.data.length R.data.length
      (nameMates L.pts.getNames R.pts.getNames) := by
    unfold joinPts; rw [hL.rows, hR.rows]
  generalize hmL : idxOfNames L.fts (matchingNames L.fts R.fts) = mL at hF hasc hprep sl1 sl2 sl3 sl4
  generalize hmR : idxOfNames R.fts (matchingNames L.fts R.fts) = mR at hF hprep sl1 sl2 sl3 sl4
  -- the prepared lists
  have hcL : ∀ q ∈ L.data, q.length = L.fts.getNames.length := by rw [hlL]; exact hL.cols
  have hcR : ∀ q ∈ R.data, q.length = R.fts.getNames.length := by rw [hlR]; exact hR.cols
  have hleftlen : ∀ l ∈ withKeys m L.pts.getNames 0 (L.data.map (sliceL feature mL)),
      l.length = widthL feature L.fts.getNames.length mL + 1 := by
    intro l hl
    obtain ⟨i, hi, rfl⟩ := List.getElem_of_mem hl
    have h1 := getElem?_withKeys m L.pts.getNames 0 (L.data.map (sliceL feature mL)) i
    rw [List.getElem?_eq_getElem hi, List.getElem?_map] at h1
    rw [length_withKeys, List.length_map] at hi
    rw [List.getElem?_eq_getElem hi] at h1
    simp only [Option.map_some, Option.some.injEq] at h1
    rw [h1, List.length_cons, length_sliceL hF feature hasc (hcL _ (List.getElem_mem hi))]
  have hrightlen : ∀ l ∈ withKeys m R.pts.getNames L.data.length (R.data.map (sliceR feature mR)),
      l.length = widthR feature R.fts.getNames.length mR + 1 := by
    intro l hl
    obtain ⟨i, hi, rfl⟩ := List.getElem_of_mem hl
    have h1 := getElem?_withKeys m R.pts.getNames L.data.length (R.data.map (sliceR feature mR)) i
    rw [List.getElem?_eq_getElem hi, List.getElem?_map] at h1
    rw [length_withKeys, List.length_map] at hi
    rw [List.getElem?_eq_getElem hi] at h1
    simp only [Option.map_some, Option.some.injEq] at h1
    rw [h1, List.length_cons, length_sliceR hF feature (hcR _ (List.getElem_mem hi))]
  have hmates : ∀ i, i < L.data.length →
      matesIdx m.nan 0 0 (withKeys m L.pts.getNames 0 (L.data.map (sliceL feature mL)))
        (withKeys m R.pts.getNames L.data.length (R.data.map (sliceR feature mR))) i
        = nameMates L.pts.getNames R.pts.getNames i := by
    intro i hi
    have := matesIdx_names m (lN := L.pts.getNames) (rN := R.pts.getNames)
      (left := L.data.map (sliceL feature mL)) (right := R.data.map (sliceR feature mR))
      (by rw [List.length_map, hpL, hL.rows]) (by rw [List.length_map, hpR, hR.rows]) (i := i)
      (by simpa using hi)
    rw [List.length_map] at this
    exact this
  have hne : withKeys m L.pts.getNames 0 (L.data.map (sliceL feature mL)) ≠ [] := by
    intro e
    have := congrArg List.length e
    rw [length_withKeys, List.length_map, hL.rows, List.length_nil] at this
    omega
  have hne' : withKeys m R.pts.getNames L.data.length (R.data.map (sliceR feature mR)) ≠ [] := by
    intro e
    have := congrArg List.length e
    rw [length_withKeys, List.length_map, hR.rows, List.length_nil] at this
    omega
  have hnd : ∀ l : List Nat, l.Nodup → (0 :: l.map (· + 1)).Nodup := by
    intro l hl
    rw [List.nodup_cons]
    exact ⟨by simp, hl.map (fun a b h => by simpa using h)⟩
  have hcore := mergeCore_spec (nan := m.nan) (point := point) (onL := 0) (onR := 0)
    (mL := 0 :: (matchL feature mL).map (· + 1)) (mR := 0 :: (matchR feature mR).map (· + 1))
    hne hne' hleftlen hrightlen (by simp [sl1]) (hnd _ sl2) (hnd _ sl3)
    (by
      intro j hj
      rcases List.mem_cons.1 hj with rfl | hj
      · omega
      · obtain ⟨k, hk, rfl⟩ := List.mem_map.1 hj
        have := sl4 k hk
        omega)
    (by
      intro i hi
      rw [length_withKeys, List.length_map] at hi
      left
      rw [hmates i hi, hP.nameMates_eq]
      cases mateIn _ _ i <;> simp)
  rw [length_withKeys, length_withKeys, List.length_map, List.length_map] at hcore
  -- conflicts
  have hmlt : ∀ i, i < L.pts.len → ∀ j ∈ nameMates L.pts.getNames R.pts.getNames i, j < R.pts.len := by
    intro i _ j hj
    have : j < R.pts.getNames.length := by simpa using (List.mem_filter.1 hj).1
    rw [hpR] at this; exact this
  have hconf := not_conflict_iff hL hR m.nan hF (mates := nameMates L.pts.getNames R.pts.getNames) hmlt
  have hagree : (∀ i, i < L.data.length → ∀ j ∈ matesIdx m.nan 0 0
        (withKeys m L.pts.getNames 0 (L.data.map (sliceL feature mL)))
        (withKeys m R.pts.getNames L.data.length (R.data.map (sliceR feature mR))) i,
        ∀ p ∈ (0 :: (matchL feature mL).map (· + 1)).zip (0 :: (matchR feature mR).map (· + 1)),
        Agree m.nan
          (rowCell m.nan ((withKeys m L.pts.getNames 0 (L.data.map (sliceL feature mL))).getD i []) p.1)
          (rowCell m.nan ((withKeys m R.pts.getNames L.data.length
            (R.data.map (sliceR feature mR))).getD j []) p.2)) ↔
      ¬ Conflict m.nan L R (nameMates L.pts.getNames R.pts.getNames) := by
    rw [← hconf]
    have key : ∀ i, i < L.data.length → ∀ j ∈ nameMates L.pts.getNames R.pts.getNames i,
        ((∀ p ∈ (0 :: (matchL feature mL).map (· + 1)).zip (0 :: (matchR feature mR).map (· + 1)),
        Agree m.nan
          (rowCell m.nan ((withKeys m L.pts.getNames 0 (L.data.map (sliceL feature mL))).getD i []) p.1)
          (rowCell m.nan ((withKeys m R.pts.getNames L.data.length
            (R.data.map (sliceR feature mR))).getD j []) p.2)) ↔
        ∀ p ∈ mL.zip mR, Agree m.nan (rowCell m.nan (L.data.getD i []) p.1)
          (rowCell m.nan (R.data.getD j []) p.2)) := by
      intro i hi j hj
      have hj' : j < R.data.length := by rw [hR.rows]; exact hmlt i (by rw [← hL.rows]; exact hi) j hj
      rw [← agree_slices hF feature m.nan hasc (hcL _ (getD_mem (d := []) hi))
        (hcR _ (getD_mem (d := []) hj'))]
      rw [getD_withKeys m _ _ (by simpa using hi), getD_withKeys m _ _ (by simpa using hj'),
        getD_map (d := []) _ hi, getD_map (d := []) _ hj']
      have hkey : pyEqv m.nan (ptKey m R.pts.getNames L.data.length j) (ptKey m L.pts.getNames 0 i) = true := by
        rw [ptKey_eq_iff m hi (by rw [hpL, hL.rows]) (by rw [hpR, ← hR.rows]; exact hj')]
        simpa using (List.mem_filter.1 hj).2
      have hkey' : ptKey m L.pts.getNames 0 i = ptKey m R.pts.getNames L.data.length j := by
        simp only [pyEqv, decide_eq_true_eq] at hkey
        exact hkey.1.symm
      rw [List.zip_cons_cons, List.zip_map]
      constructor
      · intro h p hp
        have := h (p.1 + 1, p.2 + 1) (by
          apply List.mem_cons_of_mem
          exact List.mem_map.2 ⟨p, hp, rfl⟩)
        simpa [rowCell] using this
      · intro h p hp
        rcases List.mem_cons.1 hp with rfl | hp
        · left
          simp only [rowCell, List.getD_cons_zero]
          exact hkey'
        · obtain ⟨q, hq, rfl⟩ := List.mem_map.1 hp
          have := h q hq
          simpa [rowCell] using this
    constructor
    · intro h i hi j hj
      have hi' : i < L.data.length := by rw [hL.rows]; exact hi
      exact (key i hi' j hj).1 (h i hi' j (by rw [hmates i hi']; exact hj))
    · intro h i hi j hj
      rw [hmates i hi] at hj
      exact (key i hi j hj).2 (h i (by rw [← hL.rows]; exact hi) j hj)
  rw [hagree] at hcore
  have hprep' : L.mergePrep m R feature none =
      ⟨withKeys m L.pts.getNames 0 (L.data.map (sliceL feature mL)),
       withKeys m R.pts.getNames L.data.length (R.data.map (sliceR feature mR)),
       0 :: (matchL feature mL).map (· + 1), 0 :: (matchR feature mR).map (· + 1), 0, 0⟩ := by
    show prepNames m L.pts.getNames R.pts.getNames feature L.data R.data
      (idxOfNames L.fts (matchingNames L.fts R.fts)) (idxOfNames R.fts (matchingNames L.fts R.fts)) = _
    rw [hmL, hmR, hprep]
  have hfront : L.mergeFront m R point feature none =
      match (mergeCore m.nan point (0 :: (matchL feature mL).map (· + 1))
        (0 :: (matchR feature mR).map (· + 1)) 0 0
        (withKeys m L.pts.getNames 0 (L.data.map (sliceL feature mL)))
        (withKeys m R.pts.getNames L.data.length (R.data.map (sliceR feature mR)))).2 with
      | .error e => ({ L with data := (mergeCore m.nan point (0 :: (matchL feature mL).map (· + 1))
        (0 :: (matchR feature mR).map (· + 1)) 0 0
        (withKeys m L.pts.getNames 0 (L.data.map (sliceL feature mL)))
        (withKeys m R.pts.getNames L.data.length (R.data.map (sliceR feature mR)))).1 }, .error e)
      | .ok rows => L.mergeNamesOut R point feature true rows (mergeWidth (L.mergePrep m R feature none)) := by
    unfold mergeFront
    rw [hcheck]
    dsimp only
    rw [hprep']
    rfl
  constructor
  · intro hc
    have h1 := hcore.1 hc
    rw [hfront, h1]
    dsimp only
    have hw : mergeWidth (L.mergePrep m R feature none) = (joinFts feature L R).length + 1 := by
      rw [hprep']
      unfold mergeWidth
      dsimp only
      rw [headD_length hne hleftlen, headD_length hne' hrightlen, List.length_cons, List.length_map,
        ← width_join hL hR feature hF hasc, hlL, hlR]
      omega
    have hdata : ((joined point L.data.length R.data.length
        (matesIdx m.nan 0 0 (withKeys m L.pts.getNames 0 (L.data.map (sliceL feature mL)))
          (withKeys m R.pts.getNames L.data.length (R.data.map (sliceR feature mR))))).map
        (fun p => outRow m.nan (colsOf (widthL feature L.fts.getNames.length mL + 1)
          (0 :: (matchL feature mL).map (· + 1)) (0 :: (matchR feature mR).map (· + 1))
          (widthR feature R.fts.getNames.length mR + 1))
          (p.1.bind ((withKeys m L.pts.getNames 0 (L.data.map (sliceL feature mL)))[·]?))
          (p.2.bind ((withKeys m R.pts.getNames L.data.length
            (R.data.map (sliceR feature mR)))[·]?)))).map (List.drop 1)
        = joinData m.nan L R (joinPts point L R) (joinFts feature L R) := by
      have hj : joined point L.data.length R.data.length
          (matesIdx m.nan 0 0 (withKeys m L.pts.getNames 0 (L.data.map (sliceL feature mL)))
            (withKeys m R.pts.getNames L.data.length (R.data.map (sliceR feature mR))))
          = joinPts point L R := by
        rw [hpoints]
        unfold joined
        congr 1
        · apply List.flatMap_congr
          intro i hi
          rw [hmates i (by simpa using hi)]
        · split
          · congr 1
            apply List.filter_congr
            intro j _
            rw [decide_eq_decide]
            constructor
            · intro h i hi
              rw [← hmates i (by simpa using hi)]
              exact h i hi
            · intro h i hi
              rw [hmates i (by simpa using hi)]
              exact h i hi
          · rfl
      rw [hj, List.map_map]
      unfold joinData
      apply List.map_congr_left
      intro p _
      simp only [Function.comp]
      rw [bind_withKeys, bind_withKeys, outRow_drop _ _ _ sl1]
      rw [outRow_slices hF feature m.nan hasc]
      · unfold joinFts
        rw [hlL, hlR]
      · intro q hq
        cases hp1 : p.1 with
        | none => rw [hp1] at hq; cases hq
        | some i =>
          rw [hp1] at hq
          exact hcL q (List.mem_of_getElem? hq)
      · intro q hq
        cases hp1 : p.2 with
        | none => rw [hp1] at hq; cases hq
        | some i =>
          rw [hp1] at hq
          exact hcR q (List.mem_of_getElem? hq)
    obtain ⟨f, hf1, hf2, hf3, hf4⟩ := fts_out hL hR htfl htfr feature
    obtain ⟨hn1, hn2⟩ := ptNames_ok hL hR htpl htpr point
    have hrows := congrArg List.length hdata
    rw [List.length_map] at hrows
    have hjl : (joinData m.nan L R (joinPts point L R) (joinFts feature L R)).length
        = (joinPts point L R).length := by simp [joinData]
    unfold mergeNamesOut
    simp only [if_true]
    rw [hdata, hrows, hjl, hw, Nat.add_sub_cancel, hf1]
    dsimp only
    have hpl' : (L.mergedPtNames R point).length = (joinPts point L R).length := by rw [hn1]; simp
    have hset := setNames_list_eq ⟨(joinPts point L R).length, L.pts.tbl⟩ (L.mergedPtNames R point)
    rw [if_pos ⟨hpl', hn2⟩] at hset
    rw [hset]
    refine ⟨_, rfl, merged_of (mk_ok hpl' hn2) hf2 rfl hf3 hf4, hn1⟩
  · intro hc
    have h1 := hcore.2 (not_not.2 hc)
    rw [hfront, h1]

/-- C19. Merging two (non-empty) objects with names on point names, with any of the modes 'left',
'union' and 'intersection' for the points and the features: the result has exactly the points and the
features of the join (those of the caller, with the ones of the callee added for 'union' and the ones
not in both left out for 'intersection'; unnamed ones are never the same), under their names; each
element is the caller's where it has one which is not missing, otherwise the callee's where it has
one, and missing otherwise.  If two elements which both exist and are not missing differ, the merge is
refused.  For `feature='intersection'` the feature names must have been created in order. -/
theorem C19_merge_on_points_partial (m : MergeVals V) (le : V → V → Bool) {L R : Obj V} (hL : L.WF)
    (hR : R.WF) (hpl : L.pts.namesCreated) (hpr : R.pts.namesCreated) (hfl : L.fts.namesCreated)
    (hfr : R.fts.namesCreated) (hnL : 0 < L.pts.len) (hnR : 0 < R.pts.len)
    (point feature : MergeMode) (hord : feature = .intersection → NamesInOrder L.fts) :
    (¬ Conflict m.nan L R (nameMates L.pts.getNames R.pts.getNames) →
      ∃ r, L.merge m le R point feature none = (r, .ok ()) ∧
        Merged m.nan L R (joinPts point L R) (joinFts feature L R) r ∧
        r.pts.getNames = (joinPts point L R).map (nameOfPair L.pts.getNames R.pts.getNames)) ∧
    (Conflict m.nan L R (nameMates L.pts.getNames R.pts.getNames) →
      (L.merge m le R point feature none).2 = .error .InvalidArgumentValue) := by
  have h := front_names m hL hR hpl hpr hfl hfr hnL hnR point feature hord
  have he : L.merge m le R point feature none = L.mergeFront m R point feature none := by
    unfold merge
    dsimp only
    split <;> simp_all
  rw [he]
  exact h

/-- C19. Without point names in both objects (and no feature to merge on), or without feature names in
both objects, a merge is refused and changes nothing. -/
theorem C19_merge_needs_names (m : MergeVals V) (le : V → V → Bool) (L R : Obj V)
    (point feature : MergeMode) (on : Option OnFt)
    (h : (on = none ∧ ¬ (L.pts.namesCreated ∧ R.pts.namesCreated)) ∨
      ¬ (L.fts.namesCreated ∧ R.fts.namesCreated)) :
    L.merge m le R point feature on = (L, .error .InvalidArgumentValueCombination) := by
  have hc : L.mergeCheck m.nan R on = .error .InvalidArgumentValueCombination := by
    unfold mergeCheck
    by_cases h1 : on.isNone ∧ ¬ (L.pts.namesCreated ∧ R.pts.namesCreated)
    · rw [if_pos h1]
    · rw [if_neg h1, if_pos]
      rcases h with ⟨rfl, h⟩ | h
      · exact absurd ⟨rfl, h⟩ h1
      · exact h
  unfold merge mergeFront
  rw [hc]

/-! ## Merging on a feature -/

/-- The right points with the same, not missing, value: feature `a` of the left and feature `b` of the
right object. -/
def valueMates (nan : V) (L R : Obj V) (a b : Nat) (i : Nat) : List Nat :=
  (List.range R.pts.len).filter (fun j =>
    decide (L.elem? i a = R.elem? j b ∧ L.elem? i a ≠ some nan))

/-- No two points have the same value of feature `a`. -/
def UniqueIn (o : Obj V) (a : Nat) : Prop :=
  ∀ i i', i < o.pts.len → i' < o.pts.len → o.elem? i a = o.elem? i' a → i = i'

/-- The points of the join on a feature. -/
def joinPtsOn (nan : V) (mode : MergeMode) (L R : Obj V) (a b : Nat) : List (Option Nat × Option Nat) :=
  joined mode L.pts.len R.pts.len (valueMates nan L R a b)

theorem columnOf_nodup {o : Obj V} (ho : o.WF) (nan : V) {a : Nat} (ha : a < o.fts.len) :
    (o.columnOf nan a).Nodup ↔ UniqueIn o a := by
  unfold columnOf UniqueIn
  rw [List.nodup_iff_getElem?_ne_getElem?]
  have hg : ∀ i, i < o.pts.len → (o.data.map (fun r => rowCell nan r a))[i]? = o.elem? i a := by
    intro i hi
    have hi' : i < o.data.length := by rw [ho.rows]; exact hi
    rw [elem?_rowCell ho nan hi ha, List.getElem?_map, getD_eq_some (d := []) hi']
    rfl
  constructor
  · intro h i i' hi hi' e
    by_contra hne
    rcases Nat.lt_or_gt_of_ne hne with hlt | hlt
    · exact h i i' hlt (by rw [List.length_map, ho.rows]; exact hi') (by rw [hg i hi, hg i' hi', e])
    · exact h i' i hlt (by rw [List.length_map, ho.rows]; exact hi) (by rw [hg i hi, hg i' hi', e])
  · intro h i i' hlt hi' e
    rw [List.length_map, ho.rows] at hi'
    rw [hg i (by omega), hg i' hi'] at e
    have := h i i' (by omega) hi' e
    omega

theorem valueMates_le_one {nan : V} {L R : Obj V} {a b : Nat} (hu : UniqueIn R b) (i : Nat) :
    (valueMates nan L R a b i).length ≤ 1 := by
  have hnd : (valueMates nan L R a b i).Nodup := List.nodup_range.filter _
  match hv : valueMates nan L R a b i with
  | [] => simp
  | [_] => simp
  | x :: y :: rest =>
    exfalso
    rw [hv] at hnd
    have hx : x ∈ valueMates nan L R a b i := by rw [hv]; simp
    have hy : y ∈ valueMates nan L R a b i := by rw [hv]; simp
    unfold valueMates at hx hy
    simp only [List.mem_filter, List.mem_range, decide_eq_true_eq] at hx hy
    have := hu x y hx.1 hy.1 (by rw [← hx.2.1, hy.2.1])
    subst this
    simp at hnd

theorem idxOf_self_of_prefix {n i : Nat} (hi : i < n) (p : Nat → Bool) (hp : ∀ a ≤ i, p a = true) :
    ((List.range n).filter p).idxOf i = i := by
  have hsplit : List.range n = List.range (i + 1) ++ (List.range (n - (i + 1))).map (· + (i + 1)) := by
    have : n = (i + 1) + (n - (i + 1)) := by omega
    conv => lhs; rw [this]
    rw [List.range_add]
    congr 1
    apply List.map_congr_left
    intro x _
    omega
  have hf : (List.range (i + 1)).filter p = List.range (i + 1) := by
    rw [List.filter_eq_self]
    intro a ha
    exact hp a (by have := List.mem_range.1 ha; omega)
  rw [hsplit, List.filter_append, hf, List.idxOf_append_of_mem (by simp)]
  have := List.Nodup.idxOf_getElem (List.nodup_range (n := i + 1)) i (by simp)
  simpa using this

/-- The column merged on, in the prepared rows. -/
def onLeftIdx (feature : MergeMode) (mL : List Nat) (iL : Nat) : Nat :=
  match feature with
  | .union => iL
  | _ => mL.idxOf iL

def onRightIdx (feature : MergeMode) (mL : List Nat) (iL iR : Nat) : Nat :=
  match feature with
  | .union => iR
  | _ => mL.idxOf iL

theorem front_on (m : MergeVals V) {L R : Obj V} (hL : L.WF) (hR : R.WF)
    (hfl : L.fts.namesCreated) (hfr : R.fts.namesCreated) (hnL : 0 < L.pts.len) (hnR : 0 < R.pts.len)
    {f : OnFt} {s : String} (hs : L.resolveOn R f = .ok s) {iL iR : Nat}
    (hiL : L.fts.getNames[iL]? = some (some s)) (hiR : R.fts.getNames[iR]? = some (some s))
    (huniq : UniqueIn L iL ∨ UniqueIn R iR)
    (hsafe : UniqueIn R iR ∨ ∀ i a, nameMates L.fts.getNames R.fts.getNames a ≠ [] →
      L.elem? i a ≠ some m.nan)
    (point feature : MergeMode) (hord : feature ≠ .union → NamesInOrder L.fts)
    (hfirst : feature = .left → ∀ a < iL, nameMates L.fts.getNames R.fts.getNames a ≠ []) :
    (¬ Conflict m.nan L R (valueMates m.nan L R iL iR) →
      ∃ r, L.mergeFront m R point feature (some f) = (r, .ok ()) ∧
        Merged m.nan L R (joinPtsOn m.nan point L R iL iR) (joinFts feature L R) r ∧
        r.pts.getNames = (joinPtsOn m.nan point L R iL iR).map (fun _ => none)) ∧
    (Conflict m.nan L R (valueMates m.nan L R iL iR) →
      (L.mergeFront m R point feature (some f)).2 = .error .InvalidArgumentValue) := by
  obtain ⟨tfl, htfl⟩ := Option.isSome_iff_exists.1 hfl
  obtain ⟨tfr, htfr⟩ := Option.isSome_iff_exists.1 hfr
  have hF := matching_of hL.fts hR.fts htfl htfr
  have hlL := hL.fts.length_getNames
  have hlR := hR.fts.length_getNames
  have hiL' : iL < L.fts.len := by rw [← hlL]; exact (List.getElem?_eq_some_iff.1 hiL).1
  have hiR' : iR < R.fts.len := by rw [← hlR]; exact (List.getElem?_eq_some_iff.1 hiR).1
  have hcheck : L.mergeCheck m.nan R (some f) = .ok (some (iL, iR)) := by
    have h1 : L.fts.getIndexByName s = .ok iL := by
      unfold AxisSt.getIndexByName
      rw [AxisSt.getNames_of_some htfl, (hL.fts tfl htfl).iff] at hiL
      rw [htfl]; simp [hiL]
    have h2 : R.fts.getIndexByName s = .ok iR := by
      unfold AxisSt.getIndexByName
      rw [AxisSt.getNames_of_some htfr, (hR.fts tfr htfr).iff] at hiR
      rw [htfr]; simp [hiR]
    have h3 : L.checkOn m.nan R s = .ok (iL, iR) := by
      unfold checkOn
      rw [h1, h2]
      dsimp only
      rw [if_pos]
      rw [columnOf_nodup hL m.nan hiL', columnOf_nodup hR m.nan hiR']
      exact huniq
    unfold mergeCheck
    rw [if_neg (by simp), if_neg (by simp [hfl, hfr])]
    simp only [bind, Except.bind, hs, h3, pure, Except.pure]
  have hascAll : feature ≠ .union → idxOfNames L.fts (matchingNames L.fts R.fts) =
      (List.range L.fts.getNames.length).filter
        (fun i => decide (i ∈ idxOfNames L.fts (matchingNames L.fts R.fts))) := by
    intro hf
    exact ascending_of hF (pairwise_idxOfNames hL.fts htfl htfr (hord hf))
  obtain ⟨sl1, sl2, sl3, sl4⟩ := sliced_of hF feature
  generalize hmL : idxOfNames L.fts (matchingNames L.fts R.fts) = mL at hF hascAll sl1 sl2 sl3 sl4
  generalize hmR : idxOfNames R.fts (matchingNames L.fts R.fts) = mR at hF sl1 sl2 sl3 sl4
  have hasc : feature = .intersection → mL =
      (List.range L.fts.getNames.length).filter (fun i => decide (i ∈ mL)) :=
    fun hf => hascAll (by rw [hf]; simp)
  have hcL : ∀ q ∈ L.data, q.length = L.fts.getNames.length := by rw [hlL]; exact hL.cols
  have hcR : ∀ q ∈ R.data, q.length = R.fts.getNames.length := by rw [hlR]; exact hR.cols
  have hmate : mateIn mL mR iL = some iR := (hF.mate_iff iL iR).2 ⟨s, hiL, hiR⟩
  have hmem : iL ∈ mL := (hF.mem_left iL).2 ⟨iR, hmate⟩
  have hk := hF.idxOf_lt hmem
  have hk' : mL.idxOf iL < mL.length := List.idxOf_lt_length_of_mem hmem
  have hmRk : mR[mL.idxOf iL] = iR := by
    unfold mateIn at hmate
    rw [if_pos hmem] at hmate
    simp only [List.getD_eq_getElem?_getD, List.getElem?_eq_getElem hk, Option.getD_some,
      Option.some.injEq] at hmate
    exact hmate
  have honL : ∀ q ∈ L.data, rowCell m.nan (sliceL feature mL q) (onLeftIdx feature mL iL)
      = rowCell m.nan q iL := by
    intro q hq
    cases feature with
    | union => rfl
    | left =>
      simp only [sliceL, onLeftIdx]
      have hall : ∀ a ≤ iL, decide (a ∈ mL) = true := by
        intro a ha
        rw [decide_eq_true_eq]
        rcases Nat.lt_or_ge a iL with hlt | hge
        · have := hfirst rfl a hlt
          rw [hF.nameMates_eq] at this
          rw [hF.mem_left]
          cases hm : mateIn mL mR a with
          | none => rw [hm] at this; exact absurd rfl this
          | some j => exact ⟨j, rfl⟩
        · have : a = iL := by omega
          rw [this]; exact hmem
      have hidx := idxOf_self_of_prefix (n := L.fts.getNames.length) (i := iL) (by omega)
        (fun a => decide (a ∈ mL)) hall
      rw [← hascAll (by simp)] at hidx
      rw [hidx]
    | intersection =>
      simp only [sliceL, onLeftIdx]
      rw [keepIdx_eq hF (hcL q hq) (hasc rfl), rowCell_eq, rowCell_eq,
        getElem?_pick (fun j hj => by rw [hcL q hq]; exact hF.ltL hj),
        List.getElem?_eq_getElem hk', List.getElem_idxOf]
      rfl
  have honR : ∀ q ∈ R.data, rowCell m.nan (sliceR feature mR q) (onRightIdx feature mL iL iR)
      = rowCell m.nan q iR := by
    intro q hq
    have hpick : rowCell m.nan (pick q mR) (mL.idxOf iL) = rowCell m.nan q iR := by
      rw [rowCell_eq, rowCell_eq, getElem?_pick (fun j hj => by rw [hcR q hq]; exact hF.ltR hj),
        List.getElem?_eq_getElem hk, hmRk]
      rfl
    cases feature with
    | union => rfl
    | left => exact hpick
    | intersection => exact hpick
  have hprep : prepOn feature iL iR L.data R.data mL mR =
      ⟨L.data.map (sliceL feature mL), R.data.map (sliceR feature mR), matchL feature mL,
        matchR feature mR, onLeftIdx feature mL iL, onRightIdx feature mL iL iR⟩ := by
    have hid : L.data.map (fun l : List V => l) = L.data := List.map_id' L.data
    have hid' : R.data.map (fun l : List V => l) = R.data := List.map_id' R.data
    cases feature with
    | union =>
      have h1 : L.data.map (sliceL .union mL) = L.data := hid
      have h2 : R.data.map (sliceR .union mR) = R.data := hid'
      rw [h1, h2]; rfl
    | left =>
      have h1 : L.data.map (sliceL .left mL) = L.data := hid
      rw [h1]; rfl
    | intersection =>
      have h1 : L.data.map (sliceL .intersection mL) = L.data.map (fun pt => pick pt mL) := by
        apply List.map_congr_left
        intro q hq
        exact keepIdx_eq hF (hcL q hq) (hasc rfl)
      rw [h1]; rfl
  have hleftlen : ∀ l ∈ L.data.map (sliceL feature mL), l.length = widthL feature L.fts.getNames.length mL := by
    intro l hl
    obtain ⟨q, hq, rfl⟩ := List.mem_map.1 hl
    exact length_sliceL hF feature hasc (hcL q hq)
  have hrightlen : ∀ l ∈ R.data.map (sliceR feature mR), l.length = widthR feature R.fts.getNames.length mR := by
    intro l hl
    obtain ⟨q, hq, rfl⟩ := List.mem_map.1 hl
    exact length_sliceR hF feature (hcR q hq)
  have hmates : ∀ i, i < L.data.length → matesIdx m.nan (onLeftIdx feature mL iL)
      (onRightIdx feature mL iL iR) (L.data.map (sliceL feature mL)) (R.data.map (sliceR feature mR)) i
        = valueMates m.nan L R iL iR i := by
    intro i hi
    unfold matesIdx valueMates
    rw [List.length_map, hR.rows]
    apply List.filter_congr
    intro j hj
    have hj : j < R.pts.len := by simpa using hj
    have hj' : j < R.data.length := by rw [hR.rows]; exact hj
    rw [getD_map (d := []) _ hi, getD_map (d := []) _ hj', honL _ (getD_mem hi), honR _ (getD_mem hj')]
    rw [elem?_rowCell hL m.nan (by rw [← hL.rows]; exact hi) hiL', elem?_rowCell hR m.nan hj hiR']
    unfold pyEqv
    rw [decide_eq_decide]
    simp only [ne_eq, Option.some.injEq]
    constructor
    · rintro ⟨h1, h2⟩; exact ⟨h1.symm, by rw [← h1]; exact h2⟩
    · rintro ⟨h1, h2⟩; exact ⟨h1.symm, by rw [← h1]; exact h2⟩
  have hne : L.data.map (sliceL feature mL) ≠ [] := by
    intro e
    have := congrArg List.length e
    rw [List.length_map, hL.rows, List.length_nil] at this
    omega
  have hne' : R.data.map (sliceR feature mR) ≠ [] := by
    intro e
    have := congrArg List.length e
    rw [List.length_map, hR.rows, List.length_nil] at this
    omega
  have hnoNan : (∀ i a, nameMates L.fts.getNames R.fts.getNames a ≠ [] → L.elem? i a ≠ some m.nan) →
      ∀ q ∈ L.data, ∀ a ∈ matchL feature mL, (sliceL feature mL q)[a]? ≠ some m.nan := by
    intro h q hq
    have hbase : ∀ a ∈ mL, q[a]? ≠ some m.nan := by
      intro a ha
      obtain ⟨i, hi, rfl⟩ := List.getElem_of_mem hq
      have := h i a (by
        rw [hF.nameMates_eq]
        obtain ⟨j, hj⟩ := (hF.mem_left a).1 ha
        rw [hj]; simp)
      unfold elem? at this
      rw [List.getElem?_eq_getElem hi] at this
      exact this
    cases feature with
    | union => exact hbase
    | left => exact hbase
    | intersection =>
      intro a ha
      have ha : a < mL.length := by simpa [matchL] using ha
      simp only [sliceL]
      rw [keepIdx_eq hF (hcL q hq) (hasc rfl),
        getElem?_pick (fun j hj => by rw [hcL q hq]; exact hF.ltL hj), List.getElem?_eq_getElem ha]
      exact hbase _ (List.getElem_mem ha)
  have hcore := mergeCore_spec (nan := m.nan) (point := point) (onL := onLeftIdx feature mL iL)
    (onR := onRightIdx feature mL iL iR) (mL := matchL feature mL) (mR := matchR feature mR)
    hne hne' hleftlen hrightlen sl1 sl2 sl3 sl4
    (by
      intro i hi
      rw [List.length_map] at hi
      rcases hsafe with hu | hn
      · left
        rw [hmates i hi]
        exact valueMates_le_one hu i
      · right
        rw [getD_map (d := []) _ hi]
        exact hnoNan hn _ (getD_mem hi))
  rw [List.length_map, List.length_map] at hcore
  have hmlt : ∀ i, i < L.pts.len → ∀ j ∈ valueMates m.nan L R iL iR i, j < R.pts.len := by
    intro i _ j hj
    simpa using (List.mem_filter.1 hj).1
  have hconf := not_conflict_iff hL hR m.nan hF (mates := valueMates m.nan L R iL iR) hmlt
  have hagree : (∀ i, i < L.data.length → ∀ j ∈ matesIdx m.nan (onLeftIdx feature mL iL)
      (onRightIdx feature mL iL iR) (L.data.map (sliceL feature mL)) (R.data.map (sliceR feature mR)) i,
        ∀ p ∈ (matchL feature mL).zip (matchR feature mR),
        Agree m.nan (rowCell m.nan ((L.data.map (sliceL feature mL)).getD i []) p.1)
          (rowCell m.nan ((R.data.map (sliceR feature mR)).getD j []) p.2)) ↔
      ¬ Conflict m.nan L R (valueMates m.nan L R iL iR) := by
    rw [← hconf]
    have key : ∀ i, i < L.data.length → ∀ j ∈ valueMates m.nan L R iL iR i,
        ((∀ p ∈ (matchL feature mL).zip (matchR feature mR),
        Agree m.nan (rowCell m.nan ((L.data.map (sliceL feature mL)).getD i []) p.1)
          (rowCell m.nan ((R.data.map (sliceR feature mR)).getD j []) p.2)) ↔
        ∀ p ∈ mL.zip mR, Agree m.nan (rowCell m.nan (L.data.getD i []) p.1)
          (rowCell m.nan (R.data.getD j []) p.2)) := by
      intro i hi j hj
      have hj' : j < R.data.length := by rw [hR.rows]; exact hmlt i (by rw [← hL.rows]; exact hi) j hj
      rw [getD_map (d := []) _ hi, getD_map (d := []) _ hj']
      exact agree_slices hF feature m.nan hasc (hcL _ (getD_mem (d := []) hi))
        (hcR _ (getD_mem (d := []) hj'))
    constructor
    · intro h i hi j hj
      have hi' : i < L.data.length := by rw [hL.rows]; exact hi
      exact (key i hi' j hj).1 (h i hi' j (by rw [hmates i hi']; exact hj))
    · intro h i hi j hj
      rw [hmates i hi] at hj
      exact (key i hi j hj).2 (h i (by rw [← hL.rows]; exact hi) j hj)
  rw [hagree] at hcore
  have hprep' : L.mergePrep m R feature (some (iL, iR)) =
      ⟨L.data.map (sliceL feature mL), R.data.map (sliceR feature mR), matchL feature mL,
        matchR feature mR, onLeftIdx feature mL iL, onRightIdx feature mL iL iR⟩ := by
    show prepOn feature iL iR L.data R.data
      (idxOfNames L.fts (matchingNames L.fts R.fts)) (idxOfNames R.fts (matchingNames L.fts R.fts)) = _
    rw [hmL, hmR, hprep]
  have hfront : L.mergeFront m R point feature (some f) =
      match (mergeCore m.nan point (matchL feature mL) (matchR feature mR)
        (onLeftIdx feature mL iL) (onRightIdx feature mL iL iR)
        (L.data.map (sliceL feature mL)) (R.data.map (sliceR feature mR))).2 with
      | .error e => ({ L with data := (mergeCore m.nan point (matchL feature mL) (matchR feature mR)
        (onLeftIdx feature mL iL) (onRightIdx feature mL iL iR)
        (L.data.map (sliceL feature mL)) (R.data.map (sliceR feature mR))).1 }, .error e)
      | .ok rows => L.mergeNamesOut R point feature false rows
          (mergeWidth (L.mergePrep m R feature (some (iL, iR)))) := by
    unfold mergeFront
    rw [hcheck]
    dsimp only
    rw [hprep']
    rfl
  constructor
  · intro hc
    have h1 := hcore.1 hc
    rw [hfront, h1]
    dsimp only
    have hw : mergeWidth (L.mergePrep m R feature (some (iL, iR))) = (joinFts feature L R).length := by
      rw [hprep']
      unfold mergeWidth
      dsimp only
      rw [headD_length hne hleftlen, headD_length hne' hrightlen,
        ← width_join hL hR feature hF hasc, hlL, hlR]
    have hdata : (joined point L.data.length R.data.length
        (matesIdx m.nan (onLeftIdx feature mL iL) (onRightIdx feature mL iL iR)
          (L.data.map (sliceL feature mL)) (R.data.map (sliceR feature mR)))).map
        (fun p => outRow m.nan (colsOf (widthL feature L.fts.getNames.length mL)
          (matchL feature mL) (matchR feature mR) (widthR feature R.fts.getNames.length mR))
          (p.1.bind ((L.data.map (sliceL feature mL))[·]?))
          (p.2.bind ((R.data.map (sliceR feature mR))[·]?)))
        = joinData m.nan L R (joinPtsOn m.nan point L R iL iR) (joinFts feature L R) := by
      have hj : joined point L.data.length R.data.length
          (matesIdx m.nan (onLeftIdx feature mL iL) (onRightIdx feature mL iL iR)
            (L.data.map (sliceL feature mL)) (R.data.map (sliceR feature mR)))
          = joinPtsOn m.nan point L R iL iR := by
        unfold joinPtsOn
        rw [← hL.rows, ← hR.rows]
        unfold joined
        congr 1
        · apply List.flatMap_congr
          intro i hi
          rw [hmates i (by simpa using hi)]
        · split
          · congr 1
            apply List.filter_congr
            intro j _
            rw [decide_eq_decide]
            constructor
            · intro h i hi
              rw [← hmates i (by simpa using hi)]
              exact h i hi
            · intro h i hi
              rw [hmates i (by simpa using hi)]
              exact h i hi
          · rfl
      rw [hj]
      unfold joinData
      apply List.map_congr_left
      intro p _
      have hbL : p.1.bind ((L.data.map (sliceL feature mL))[·]?)
          = (p.1.bind (L.data[·]?)).map (sliceL feature mL) := by
        cases p.1 with
        | none => rfl
        | some i => simp [List.getElem?_map]
      have hbR : p.2.bind ((R.data.map (sliceR feature mR))[·]?)
          = (p.2.bind (R.data[·]?)).map (sliceR feature mR) := by
        cases p.2 with
        | none => rfl
        | some i => simp [List.getElem?_map]
      rw [hbL, hbR, outRow_slices hF feature m.nan hasc]
      · unfold joinFts
        rw [hlL, hlR]
      · intro q hq
        cases hp1 : p.1 with
        | none => rw [hp1] at hq; cases hq
        | some i =>
          rw [hp1] at hq
          exact hcL q (List.mem_of_getElem? hq)
      · intro q hq
        cases hp1 : p.2 with
        | none => rw [hp1] at hq; cases hq
        | some i =>
          rw [hp1] at hq
          exact hcR q (List.mem_of_getElem? hq)
    obtain ⟨f', hf1, hf2, hf3, hf4⟩ := fts_out hL hR htfl htfr feature
    have hjl : (joinData m.nan L R (joinPtsOn m.nan point L R iL iR) (joinFts feature L R)).length
        = (joinPtsOn m.nan point L R iL iR).length := by simp [joinData]
    rw [hdata]
    unfold mergeNamesOut
    simp only [Bool.false_eq_true, if_false]
    rw [hjl, hw, hf1]
    dsimp only
    refine ⟨_, rfl, merged_of (none_ok _) hf2 rfl hf3 hf4, ?_⟩
    simp [AxisSt.getNames]
  · intro hc
    have h1 := hcore.2 (not_not.2 hc)
    rw [hfront, h1]

end Obj
end Nimble
