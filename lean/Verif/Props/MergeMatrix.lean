import Verif.Model.MergeReps
import Verif.Props.MergeCases

/-!
# C94: `merge` of `Matrix` objects
-/

namespace Nimble
variable {V : Type} [DecidableEq V]

/-! ## The loops -/

/-- No value of the columns `mL` is missing. -/
def Filled (nan : V) (mL : List Nat) (l : List V) : Prop := ∀ i ∈ mL, l[i]? ≠ some nan

theorem matMatches_eq {nan : V} {mL mR : List Nat} {l : List V} (h : Filled nan mL l) : ∀ ms : List (List V),
    mergeMatches nan mL mR l ms = (l, matMatches nan mL mR l ms)
  | [] => rfl
  | r :: ms => by
    unfold mergeMatches matMatches
    by_cases hr : (mL.zip mR).all (pairOk nan l r) = true
    · rw [if_pos hr, if_pos hr]
      dsimp only
      rw [fillLeft_id h, matMatches_eq h ms]
    · rw [if_neg hr, if_neg hr]

theorem matLeft_eq {nan : V} {point : MergeMode} {mL mR : List Nat} {onL onR : Nat} {right : List (List V)}
    {extra : Nat} : ∀ left : List (List V), (∀ l ∈ left, Filled nan mL l) →
    mergeLeft nan point mL mR onL onR right extra left =
      (left, matLeft nan point mL mR onL onR right extra left)
  | [], _ => rfl
  | l :: left, h => by
    have ih := matLeft_eq (point := point) (mR := mR) (onL := onL) (onR := onR) (right := right) (extra := extra) left
      (fun q hq => h q (by simp [hq]))
    unfold mergeLeft matLeft matPoint
    simp only [ih, matMatches_eq (h l (by simp)), bind, Except.bind, pure, Except.pure]
    by_cases hm : mergeMates nan onR right (rowCell nan l onL) = []
    · rw [if_pos hm, if_pos hm]
      cases matLeft nan point mL mR onL onR right extra left with
      | error e => rfl
      | ok rows =>
        simp only [Except.map]
        split <;> simp
    · rw [if_neg hm, if_neg hm]
      cases matMatches nan mL mR l (mergeMates nan onR right (rowCell nan l onL)) with
      | error e => rfl
      | ok rows1 =>
        cases matLeft nan point mL mR onL onR right extra left with
        | error e => rfl
        | ok rows => rfl

theorem matCore_eq {nan : V} {point : MergeMode} {mL mR : List Nat} {onL onR wL wR : Nat}
    {left right : List (List V)} (hl : left ≠ []) (hr : right ≠ []) (hwl : ∀ l ∈ left, l.length = wL)
    (hwr : ∀ r ∈ right, r.length = wR) (h : ∀ l ∈ left, Filled nan mL l) :
    mergeCore nan point mL mR onL onR left right = (left, matCore nan point mL mR onL onR wL wR left right) := by
  unfold mergeCore matCore
  obtain ⟨r0, right', rfl⟩ := List.exists_cons_of_ne_nil hr
  obtain ⟨l0, left', rfl⟩ := List.exists_cons_of_ne_nil hl
  dsimp only
  rw [matLeft_eq _ h, hwl l0 (by simp), hwr r0 (by simp)]
  dsimp only
  cases matLeft nan point mL mR onL onR (r0 :: right') (wR - mR.length) (l0 :: left') with
  | error e => rfl
  | ok rows => rfl

namespace Obj

/-! ## `Matrix` and `List` -/

/-- The two prepare the same. -/
theorem matPrep_eq (m : MergeVals V) {L R : Obj V} (hL : L.WF) (hR : R.WF) (feature : MergeMode)
    {on : Option (Nat × Nat)} (hfl : L.fts.namesCreated) (hfr : R.fts.namesCreated)
    (hord : feature = .intersection → on = none → NamesInOrder L.fts) :
    L.matPrep m R feature on = L.mergePrep m R feature on := by
  obtain ⟨tfl, htfl⟩ := Option.isSome_iff_exists.1 hfl
  obtain ⟨tfr, htfr⟩ := Option.isSome_iff_exists.1 hfr
  have hF := matching_of hL.fts hR.fts htfl htfr
  have hlL := hL.fts.length_getNames
  unfold matPrep mergePrep
  cases on with
  | some ij => rfl
  | none =>
    dsimp only
    cases feature with
    | left => rfl
    | union => rfl
    | intersection =>
      have hasc := ascending_of hF (pairwise_idxOfNames hL.fts htfl htfr (hord rfl rfl))
      unfold matPrepNames prepNames
      dsimp only
      congr 2
      apply List.map_congr_left
      intro q hq
      exact (keepIdx_eq hF (by rw [hlL]; exact hL.cols q hq) hasc).symm

/-- Widths of the prepared rows. -/
theorem prep_widths (m : MergeVals V) {L R : Obj V} (hL : L.WF) (hR : R.WF) (feature : MergeMode)
    {on : Option (Nat × Nat)} (hfl : L.fts.namesCreated) (hfr : R.fts.namesCreated) :
    let p := L.matPrep m R feature on
    let w := matWidths feature on.isNone L.fts.len R.fts.len (idxOfNames L.fts (matchingNames L.fts R.fts))
      (idxOfNames R.fts (matchingNames L.fts R.fts))
    (∀ l ∈ p.left, l.length = w.1) ∧ (∀ r ∈ p.right, r.length = w.2) ∧ p.left.length = L.data.length ∧
      p.right.length = R.data.length := by
  obtain ⟨tfl, htfl⟩ := Option.isSome_iff_exists.1 hfl
  obtain ⟨tfr, htfr⟩ := Option.isSome_iff_exists.1 hfr
  have hF := matching_of hL.fts hR.fts htfl htfr
  have hlL := hL.fts.length_getNames
  have hlR := hR.fts.length_getNames
  have hcL : ∀ q ∈ L.data, q.length = L.fts.getNames.length := by rw [hlL]; exact hL.cols
  have hcR : ∀ q ∈ R.data, q.length = R.fts.getNames.length := by rw [hlR]; exact hR.cols
  have hk : ∀ (names : List (Option String)) (add n : Nat) (rows : List (List V)), (∀ q ∈ rows, q.length = n) →
      ∀ q ∈ withKeys m names add rows, q.length = n + 1 := by
    intro names add n rows h q hq
    obtain ⟨⟨a, i⟩, ha, rfl⟩ := List.mem_map.1 hq
    have : a ∈ rows := List.mem_of_getElem? (List.mk_mem_zipIdx_iff_getElem?.1 ha)
    simp [h a this]
  have hpL : ∀ q ∈ L.data.map (fun pt => pick pt (idxOfNames L.fts (matchingNames L.fts R.fts))),
      q.length = (idxOfNames L.fts (matchingNames L.fts R.fts)).length := by
    intro q hq
    obtain ⟨r, hr, rfl⟩ := List.mem_map.1 hq
    exact length_pick (fun i hi => by rw [hcL r hr]; exact hF.ltL hi)
  have hpR : ∀ q ∈ R.data.map (fun pt => pick pt (idxOfNames R.fts (matchingNames L.fts R.fts))),
      q.length = (idxOfNames R.fts (matchingNames L.fts R.fts)).length := by
    intro q hq
    obtain ⟨r, hr, rfl⟩ := List.mem_map.1 hq
    exact length_pick (fun i hi => by rw [hcR r hr]; exact hF.ltR hi)
  unfold matPrep
  cases on with
  | none =>
    cases feature with
    | left => exact ⟨hk _ _ _ _ hL.cols, hk _ _ _ _ hpR, by simp [matPrepNames, length_withKeys],
        by simp [matPrepNames, length_withKeys]⟩
    | union => exact ⟨hk _ _ _ _ hL.cols, hk _ _ _ _ hR.cols, by simp [matPrepNames, length_withKeys],
        by simp [matPrepNames, length_withKeys]⟩
    | intersection => exact ⟨hk _ _ _ _ hpL, hk _ _ _ _ hpR, by simp [matPrepNames, length_withKeys],
        by simp [matPrepNames, length_withKeys]⟩
  | some ij =>
    cases feature with
    | left => exact ⟨hL.cols, hpR, rfl, by simp [prepOn]⟩
    | union => exact ⟨hL.cols, hR.cols, rfl, rfl⟩
    | intersection => exact ⟨hpL, hpR, by simp [prepOn], by simp [prepOn]⟩

private theorem ptKey_ne_nan (m : MergeVals V) (names : List (Option String)) (add i : Nat) :
    ptKey m names add i ≠ m.nan := by
  unfold ptKey
  split
  · exact m.ofName_ne_nan _
  · exact m.ofIdx_ne_nan _

private theorem filled_keys (m : MergeVals V) {names : List (Option String)} {add : Nat} {rows : List (List V)}
    {mL : List Nat} (h : ∀ q ∈ rows, Filled m.nan mL q) :
    ∀ q ∈ withKeys m names add rows, Filled m.nan (0 :: mL.map (· + 1)) q := by
  intro q hq
  obtain ⟨⟨a, i⟩, ha, rfl⟩ := List.mem_map.1 hq
  have hm : a ∈ rows := List.mem_of_getElem? (List.mk_mem_zipIdx_iff_getElem?.1 ha)
  intro k hk
  rcases List.mem_cons.1 hk with rfl | hk
  · simpa using ptKey_ne_nan m names add i
  · obtain ⟨k', hk', rfl⟩ := List.mem_map.1 hk
    simpa using h a hm k' hk'

/-- No value of the left object in a common feature is missing. -/
def NoneMissing (nan : V) (L R : Obj V) : Prop :=
  ∀ i a, nameMates L.fts.getNames R.fts.getNames a ≠ [] → L.elem? i a ≠ some nan

private theorem prep_filled (m : MergeVals V) {L R : Obj V} (hL : L.WF) (hR : R.WF) (feature : MergeMode)
    {on : Option (Nat × Nat)} (hfl : L.fts.namesCreated) (hfr : R.fts.namesCreated) (hn : NoneMissing m.nan L R) :
    ∀ l ∈ (L.matPrep m R feature on).left, Filled m.nan (L.matPrep m R feature on).mL l := by
  obtain ⟨tfl, htfl⟩ := Option.isSome_iff_exists.1 hfl
  obtain ⟨tfr, htfr⟩ := Option.isSome_iff_exists.1 hfr
  have hF := matching_of hL.fts hR.fts htfl htfr
  have hlL := hL.fts.length_getNames
  have hbase : ∀ q ∈ L.data, Filled m.nan (idxOfNames L.fts (matchingNames L.fts R.fts)) q := by
    intro q hq a ha
    obtain ⟨i, hi, rfl⟩ := List.getElem_of_mem hq
    have := hn i a (by
      rw [hF.nameMates_eq]
      obtain ⟨j, hj⟩ := (hF.mem_left a).1 ha
      rw [hj]; simp)
    unfold elem? at this
    rw [List.getElem?_eq_getElem hi] at this
    exact this
  have hpick : ∀ q ∈ L.data.map (fun pt => pick pt (idxOfNames L.fts (matchingNames L.fts R.fts))),
      Filled m.nan (List.range (idxOfNames L.fts (matchingNames L.fts R.fts)).length) q := by
    intro q hq a ha
    obtain ⟨r, hr, rfl⟩ := List.mem_map.1 hq
    have ha : a < (idxOfNames L.fts (matchingNames L.fts R.fts)).length := by simpa using ha
    rw [getElem?_pick (fun j hj => by rw [hL.cols r hr, ← hlL]; exact hF.ltL hj), List.getElem?_eq_getElem ha]
    exact hbase r hr _ (List.getElem_mem ha)
  unfold matPrep
  cases on with
  | none =>
    cases feature with
    | left => exact filled_keys m hbase
    | union => exact filled_keys m hbase
    | intersection =>
      have := filled_keys m (names := L.pts.getNames) (add := 0) hpick
      simp only [matPrepNames, List.range_succ_eq_map]
      exact this
  | some ij =>
    cases feature with
    | left => exact hbase
    | union => exact hbase
    | intersection => exact hpick

private theorem width_eq {p : MergePrep V} {wL wR : Nat} (hl : p.left ≠ []) (hr : p.right ≠ [])
    (hwl : ∀ l ∈ p.left, l.length = wL) (hwr : ∀ r ∈ p.right, r.length = wR) :
    mergeWidth p = wL + (wR - p.mR.length) := by
  unfold mergeWidth
  rw [headD_length hl hwl, headD_length hr hwr]

/-- **C94** (Matrix): if no value of the calling object in a common feature is missing, the merge of two non-empty
`Matrix` objects does exactly what the merge of the same objects as `List` does: the same object afterwards, also after a
refusal, and the same outcome. -/
theorem C94_matrix_same_partial (m : MergeVals V) {L R : Obj V} (hL : L.WF) (hR : R.WF) (hnL : 0 < L.pts.len)
    (hnR : 0 < R.pts.len) (point feature : MergeMode) (on : Option OnFt)
    (hord : feature = .intersection → on = none → NamesInOrder L.fts) (hn : NoneMissing m.nan L R) :
    L.mergeFrontMat m R point feature on = L.mergeFront m R point feature on := by
  unfold mergeFrontMat mergeFront
  cases hc : L.mergeCheck m.nan R on with
  | error e => rfl
  | ok ij =>
    dsimp only
    have hnames : L.fts.namesCreated ∧ R.fts.namesCreated ∧ (on = none ↔ ij = none) := by
      unfold mergeCheck at hc
      split at hc
      · cases hc
      · split at hc
        · cases hc
        · next h1 h2 =>
          have h2 : L.fts.namesCreated ∧ R.fts.namesCreated := not_not.1 h2
          refine ⟨h2.1, h2.2, ?_⟩
          cases on with
          | none => cases hc; simp
          | some f =>
            simp only [bind, Except.bind, pure, Except.pure] at hc
            cases h3 : L.resolveOn R f with
            | error e => rw [h3] at hc; cases hc
            | ok s =>
              rw [h3] at hc
              dsimp only at hc
              cases h4 : L.checkOn m.nan R s with
              | error e => rw [h4] at hc; cases hc
              | ok x => rw [h4] at hc; cases hc; simp
    obtain ⟨hfl, hfr, hon⟩ := hnames
    obtain ⟨w1, w2, w3, w4⟩ := prep_widths m hL hR feature (on := ij) hfl hfr
    have hfill := prep_filled m hL hR feature (on := ij) hfl hfr hn
    have hne : (L.matPrep m R feature ij).left ≠ [] := by
      intro h0
      rw [h0, hL.rows] at w3
      simp at w3
      omega
    have hne' : (L.matPrep m R feature ij).right ≠ [] := by
      intro h0
      rw [h0, hR.rows] at w4
      simp at w4
      omega
    have hw := width_eq hne hne' w1 w2
    rw [← matPrep_eq m hL hR feature (on := ij) hfl hfr (fun h1 h2 => hord h1 (hon.2 h2)),
      matCore_eq hne hne' w1 w2 hfill, hw]
    cases matCore m.nan point (L.matPrep m R feature ij).mL (L.matPrep m R feature ij).mR
      (L.matPrep m R feature ij).onL (L.matPrep m R feature ij).onR
      (matWidths feature ij.isNone L.fts.len R.fts.len (idxOfNames L.fts (matchingNames L.fts R.fts))
        (idxOfNames R.fts (matchingNames L.fts R.fts))).1
      (matWidths feature ij.isNone L.fts.len R.fts.len (idxOfNames L.fts (matchingNames L.fts R.fts))
        (idxOfNames R.fts (matchingNames L.fts R.fts))).2
      (L.matPrep m R feature ij).left (L.matPrep m R feature ij).right <;> rfl

/-- **C94** (Matrix, on point names): the merge of two non-empty `Matrix` objects on point names is the documented join
(see C19), if no value of the calling object in a common feature is missing. -/
theorem C94_matrix_join_partial (m : MergeVals V) {L R : Obj V} (hL : L.WF)
    (hR : R.WF) (hpl : L.pts.namesCreated) (hpr : R.pts.namesCreated) (hfl : L.fts.namesCreated)
    (hfr : R.fts.namesCreated) (hnL : 0 < L.pts.len) (hnR : 0 < R.pts.len)
    (point feature : MergeMode) (hord : feature = .intersection → NamesInOrder L.fts) (hn : NoneMissing m.nan L R) :
    (¬ Conflict m.nan L R (nameMates L.pts.getNames R.pts.getNames) →
      ∃ r, L.mergeFrontMat m R point feature none = (r, .ok ()) ∧
        Merged m.nan L R (joinPts point L R) (joinFts feature L R) r ∧
        r.pts.getNames = (joinPts point L R).map (nameOfPair L.pts.getNames R.pts.getNames)) ∧
    (Conflict m.nan L R (nameMates L.pts.getNames R.pts.getNames) →
      (L.mergeFrontMat m R point feature none).2 = .error .InvalidArgumentValue) := by
  rw [C94_matrix_same_partial m hL hR hnL hnR point feature none (fun h _ => hord h) hn]
  exact front_names m hL hR hpl hpr hfl hfr hnL hnR point feature hord

/-! ## Missing values are not filled -/

private theorem matMatches_one {nan : V} {mL mR : List Nat} {l : List V} {ms rows : List (List V)}
    (h1 : ms.length ≤ 1) (hne : ms ≠ []) (h : matMatches nan mL mR l ms = .ok rows) :
    ∃ q, rows = [q] ∧ l <+: q := by
  obtain ⟨r, ms', rfl⟩ := List.exists_cons_of_ne_nil hne
  have : ms' = [] := by
    cases ms' with
    | nil => rfl
    | cons _ _ => simp at h1
  subst this
  unfold matMatches at h
  split at h
  · simp only [matMatches, Except.map] at h
    cases h
    exact ⟨_, rfl, List.prefix_append _ _⟩
  · cases h

private theorem matLeft_prefix {nan : V} {point : MergeMode} (hp : point ≠ .intersection) {mL mR : List Nat}
    {onL onR : Nat} {right : List (List V)} {extra : Nat} : ∀ {left rows : List (List V)},
    (∀ l ∈ left, (mergeMates nan onR right (rowCell nan l onL)).length ≤ 1) →
    matLeft nan point mL mR onL onR right extra left = .ok rows → List.Forall₂ (fun l q => l <+: q) left rows
  | [], rows, _, h => by cases h; exact .nil
  | l :: left, rows, h1, h => by
    unfold matLeft at h
    simp only [bind, Except.bind, pure, Except.pure] at h
    cases ha : matPoint nan point mL mR extra l (mergeMates nan onR right (rowCell nan l onL)) with
    | error e => rw [ha] at h; cases h
    | ok here =>
      rw [ha] at h
      dsimp only at h
      cases hb : matLeft nan point mL mR onL onR right extra left with
      | error e => rw [hb] at h; cases h
      | ok more =>
        rw [hb] at h
        cases h
        have ih := matLeft_prefix hp (fun q hq => h1 q (by simp [hq])) hb
        have : ∃ q, here = [q] ∧ l <+: q := by
          unfold matPoint at ha
          split at ha
          · cases ha
            exact ⟨_, rfl, List.prefix_append _ _⟩
          · next hne => exact matMatches_one (h1 l (by simp)) hne ha
        obtain ⟨q, rfl, hq⟩ := this
        exact .cons hq ih

private theorem namesOut_data {L R : Obj V} {point feature : MergeMode} {rows : List (List V)} {w : Nat} {r : Obj V}
    (h : L.mergeNamesOut R point feature true rows w = (r, .ok ())) : r.data = rows.map (List.drop 1) := by
  unfold mergeNamesOut at h
  simp only [if_true] at h
  split at h
  · cases h
  · split at h
    · cases h
    · cases h; rfl

private theorem prefix_drop {A : Type} {l q : List A} (h : l <+: q) : l.drop 1 <+: q.drop 1 := by
  obtain ⟨t, rfl⟩ := h
  cases l with
  | nil => exact List.nil_prefix
  | cons x l => exact ⟨t, rfl⟩

/-- **Violated.** "A missing value of the calling object is replaced by the value of the other one": in a merge of two
`Matrix` objects on point names that keeps the features of the caller, every element of the caller is afterwards what it
was; so a missing one is still missing, whatever the other object has there. -/
theorem C94_matrix_missing_violated (m : MergeVals V) {L R r : Obj V} (hL : L.WF) (hR : R.WF) {point feature : MergeMode}
    (hp : point ≠ .intersection) (hf : feature ≠ .intersection)
    (hr : L.mergeFrontMat m R point feature none = (r, .ok ())) {i a : Nat} {v : V} (hv : L.elem? i a = some v) :
    r.elem? i a = some v := by
  unfold mergeFrontMat at hr
  cases hc : L.mergeCheck m.nan R none with
  | error e => rw [hc] at hr; cases hr
  | ok ij =>
    rw [hc] at hr
    have hnames : (L.pts.namesCreated ∧ R.pts.namesCreated) ∧ ij = none := by
      unfold mergeCheck at hc
      split at hc
      · cases hc
      · next h1 =>
        split at hc
        · cases hc
        · cases hc
          refine ⟨?_, rfl⟩
          by_contra h
          exact h1 ⟨rfl, h⟩
    obtain ⟨⟨hpl, hpr⟩, rfl⟩ := hnames
    dsimp only at hr
    have hpL := hL.pts.length_getNames
    have hpR := hR.pts.length_getNames
    obtain ⟨tpl, htpl⟩ := Option.isSome_iff_exists.1 hpl
    obtain ⟨tpr, htpr⟩ := Option.isSome_iff_exists.1 hpr
    have hP := matching_of hL.pts hR.pts htpl htpr
    obtain ⟨right, hright, hrl⟩ : ∃ right, (L.matPrep m R feature none).right =
        withKeys m R.pts.getNames L.data.length right ∧ right.length = R.data.length := by
      cases feature with
      | left => exact ⟨_, rfl, by simp⟩
      | union => exact ⟨_, rfl, rfl⟩
      | intersection => exact absurd rfl hf
    have hleft : (L.matPrep m R feature none).left = withKeys m L.pts.getNames 0 L.data := by
      cases feature with
      | left => rfl
      | union => rfl
      | intersection => exact absurd rfl hf
    have hon : (L.matPrep m R feature none).onL = 0 ∧ (L.matPrep m R feature none).onR = 0 := by
      cases feature <;> exact ⟨rfl, rfl⟩
    cases hcore : matCore m.nan point (L.matPrep m R feature none).mL (L.matPrep m R feature none).mR
        (L.matPrep m R feature none).onL (L.matPrep m R feature none).onR
        (matWidths feature (none : Option (Nat × Nat)).isNone L.fts.len R.fts.len
          (idxOfNames L.fts (matchingNames L.fts R.fts)) (idxOfNames R.fts (matchingNames L.fts R.fts))).1
        (matWidths feature (none : Option (Nat × Nat)).isNone L.fts.len R.fts.len
          (idxOfNames L.fts (matchingNames L.fts R.fts)) (idxOfNames R.fts (matchingNames L.fts R.fts))).2
        (L.matPrep m R feature none).left (L.matPrep m R feature none).right with
    | error e => rw [hcore] at hr; cases hr
    | ok rows =>
      rw [hcore] at hr
      dsimp only at hr
      have hdata := namesOut_data hr
      unfold matCore at hcore
      simp only [bind, Except.bind, pure, Except.pure] at hcore
      cases hl : matLeft m.nan point (L.matPrep m R feature none).mL (L.matPrep m R feature none).mR
          (L.matPrep m R feature none).onL (L.matPrep m R feature none).onR (L.matPrep m R feature none).right
          ((matWidths feature (none : Option (Nat × Nat)).isNone L.fts.len R.fts.len
            (idxOfNames L.fts (matchingNames L.fts R.fts)) (idxOfNames R.fts (matchingNames L.fts R.fts))).2
            - (L.matPrep m R feature none).mR.length) (L.matPrep m R feature none).left with
      | error e => rw [hl] at hcore; cases hcore
      | ok rows1 =>
        rw [hl] at hcore
        dsimp only at hcore
        have hrows := Except.ok.inj hcore
        rw [hon.1, hon.2, hleft, hright] at hl
        have hpre := matLeft_prefix hp (by
          intro l hlm
          obtain ⟨k, hk, rfl⟩ := List.getElem_of_mem hlm
          have hk' : k < L.data.length := by simpa [length_withKeys] using hk
          have hget : (withKeys m L.pts.getNames 0 L.data)[k] = (withKeys m L.pts.getNames 0 L.data).getD k [] := by
            simp [List.getD_eq_getElem?_getD, hk]
          rw [hget, mergeMates_idx, List.length_map,
            matesIdx_names m (by rw [hpL, hL.rows]) (by rw [hpR, hrl, hR.rows]) hk', hP.nameMates_eq]
          cases mateIn _ _ k <;> simp) hl
        have hi : i < L.data.length := by
          by_contra h
          unfold elem? at hv
          rw [List.getElem?_eq_none (by omega)] at hv
          cases hv
        have hi2 : i < rows1.length := by
          rw [← hpre.length_eq, length_withKeys]; exact hi
        have hkey : (withKeys m L.pts.getNames 0 L.data)[i]? =
            some (ptKey m L.pts.getNames 0 i :: L.data[i]) := by
          rw [getElem?_withKeys, List.getElem?_eq_getElem hi]; rfl
        have hq : ptKey m L.pts.getNames 0 i :: L.data[i] <+: rows1[i] := by
          have := hpre.get (i := i) (by rw [length_withKeys]; exact hi) hi2
          have hg := List.getElem?_eq_some_iff.1 hkey
          obtain ⟨_, hg⟩ := hg
          simp only [List.get_eq_getElem] at this
          rwa [hg] at this
        have hq' := prefix_drop hq
        unfold elem? at hv ⊢
        rw [List.getElem?_eq_getElem hi] at hv
        rw [hdata, ← hrows, List.map_append, List.getElem?_append_left (by simpa using hi2), List.getElem?_map,
          List.getElem?_eq_getElem hi2]
        obtain ⟨t, ht⟩ := hq'
        simp only [List.drop_succ_cons, List.drop_zero] at ht
        simp only [Option.map_some, Option.bind_some]
        rw [← ht, List.getElem?_append_left (List.getElem?_eq_some_iff.1 hv).1]
        exact hv

/-! ## Concrete cases -/

/-- The caller has a missing value in the common feature 'x'. -/
def missL : Obj MV := ⟨[[.n 1, .nan]], axN ["p"], axN ["k", "x"]⟩
def missR : Obj MV := ⟨[[.n 7, .n 2]], axN ["p"], axN ["x", "y"]⟩

/-- A `List` fills it, a `Matrix` does not. -/
example : (missL.mergeFront mvVals missR .left .union none).1.data = [[.n 1, .n 7, .n 2]] ∧
    (missL.mergeFrontMat mvVals missR .left .union none).1.data = [[.n 1, .nan, .n 2]] ∧
    (missL.mergeFrontMat mvVals missR .left .union none).2 = .ok () := by decide

/-- The hypotheses of `C94_matrix_same_partial` and `C94_matrix_join_partial` for two objects with common points and
features. -/
example : NoneMissing MV.nan missR missL := by
  intro i a _ h
  have : ∀ i a : Nat, missR.elem? i a ≠ some MV.nan := by
    intro i a
    match i, a with
    | 0, 0 => decide
    | 0, 1 => decide
    | 0, a + 2 => simp [Obj.elem?, missR]
    | i + 1, a => simp [Obj.elem?, missR]
  exact this i a h

example : (missR.mergeFrontMat mvVals missL .union .intersection none).1.data = [[.n 7]] ∧
    (missR.mergeFrontMat mvVals missL .union .intersection none).2 = .ok () := by decide

/-- An empty `Matrix` can be merged, an empty `List` cannot (C19_empty_violated). -/
example : (exL.mergeFrontMat mvVals emptyR .left .union none).2 = .ok () ∧
    (emptyR.mergeFrontMat mvVals exR .union .union none).2 = .ok () := by decide

end Obj
end Nimble
