import Verif.Lemmas.MergeSparse
import Mathlib.Tactic.IntervalCases

/-!
# C94: `merge` of `Sparse` objects
-/

namespace Nimble

/-! ## What the merge with all features computes -/

section
variable {V : Type} [DecidableEq V]
open Obj

private theorem nodup_keys {l : List Nat} (hl : l.Nodup) : (0 :: l.map (· + 1)).Nodup := by
  rw [List.nodup_cons]
  exact ⟨by simp, hl.map (fun a b h => by simpa using h)⟩

theorem noneMissing_filled {nan : V} {L R : Obj V} {mL mR : List Nat}
    (hF : Matching L.fts.getNames R.fts.getNames mL mR) (hn : NoneMissing nan L R) :
    ∀ q ∈ L.data, Filled nan mL q := by
  intro q hq a ha
  obtain ⟨i, hi, rfl⟩ := List.getElem_of_mem hq
  have := hn i a (by
    rw [hF.nameMates_eq]
    obtain ⟨j, hj⟩ := (hF.mem_left a).1 ha
    rw [hj]; simp)
  unfold elem? at this
  rw [List.getElem?_eq_getElem hi] at this
  exact this

private theorem ptKey_ne_nan' (m : MergeVals V) (names : List (Option String)) (add i : Nat) :
    ptKey m names add i ≠ m.nan := by
  unfold ptKey
  split
  · exact m.ofName_ne_nan _
  · exact m.ofIdx_ne_nan _

private theorem filled_keys' (m : MergeVals V) {names : List (Option String)} {add : Nat} {rows : List (List V)}
    {mL : List Nat} (h : ∀ q ∈ rows, Filled m.nan mL q) :
    ∀ q ∈ withKeys m names add rows, Filled m.nan (0 :: mL.map (· + 1)) q := by
  intro q hq
  obtain ⟨⟨a, i⟩, ha, rfl⟩ := List.mem_map.1 hq
  have hm : a ∈ rows := List.mem_of_getElem? (List.mk_mem_zipIdx_iff_getElem?.1 ha)
  intro k hk
  rcases List.mem_cons.1 hk with rfl | hk
  · simpa using ptKey_ne_nan' m names add i
  · obtain ⟨k', hk', rfl⟩ := List.mem_map.1 hk
    simpa using h a hm k' hk'

private theorem len_keys (m : MergeVals V) {names : List (Option String)} {add n : Nat} {rows : List (List V)}
    (h : ∀ q ∈ rows, q.length = n) : ∀ q ∈ withKeys m names add rows, q.length = n + 1 := by
  intro q hq
  obtain ⟨⟨a, i⟩, ha, rfl⟩ := List.mem_map.1 hq
  have : a ∈ rows := List.mem_of_getElem? (List.mk_mem_zipIdx_iff_getElem?.1 ha)
  simp [h a this]

/-- The join on point names, all features kept. -/
theorem core_names (m : MergeVals V) {L R : Obj V} (hL : L.WF) (hR : R.WF) (hpl : L.pts.namesCreated)
    (hpr : R.pts.namesCreated) (hnL : 0 < L.pts.len) (hnR : 0 < R.pts.len) (point : MergeMode) {mL mR : List Nat}
    (hF : Matching L.fts.getNames R.fts.getNames mL mR) (hn : NoneMissing m.nan L R) :
    (¬ Conflict m.nan L R (nameMates L.pts.getNames R.pts.getNames) →
      ∃ rows, matCore m.nan point (0 :: mL.map (· + 1)) (0 :: mR.map (· + 1)) 0 0 (L.fts.len + 1) (R.fts.len + 1)
        (withKeys m L.pts.getNames 0 L.data) (withKeys m R.pts.getNames L.data.length R.data) = .ok rows ∧
        (∀ r ∈ rows, r ≠ []) ∧
        rows.map (List.drop 1) = (joinPts point L R).map (fun p =>
          outRow m.nan (colsOf L.fts.len mL mR R.fts.len) (p.1.bind (L.data[·]?)) (p.2.bind (R.data[·]?)))) ∧
    (Conflict m.nan L R (nameMates L.pts.getNames R.pts.getNames) →
      matCore m.nan point (0 :: mL.map (· + 1)) (0 :: mR.map (· + 1)) 0 0 (L.fts.len + 1) (R.fts.len + 1)
        (withKeys m L.pts.getNames 0 L.data) (withKeys m R.pts.getNames L.data.length R.data) =
          .error .InvalidArgumentValue) := by
  obtain ⟨tpl, htpl⟩ := Option.isSome_iff_exists.1 hpl
  obtain ⟨tpr, htpr⟩ := Option.isSome_iff_exists.1 hpr
  have hP := matching_of hL.pts hR.pts htpl htpr
  have hlR := hR.fts.length_getNames
  have hpL := hL.pts.length_getNames
  have hpR := hR.pts.length_getNames
  have hne : withKeys m L.pts.getNames 0 L.data ≠ [] := by
    intro e
    have := congrArg List.length e
    rw [length_withKeys, hL.rows, List.length_nil] at this
    omega
  have hne' : withKeys m R.pts.getNames L.data.length R.data ≠ [] := by
    intro e
    have := congrArg List.length e
    rw [length_withKeys, hR.rows, List.length_nil] at this
    omega
  have hwl : ∀ l ∈ withKeys m L.pts.getNames 0 L.data, l.length = L.fts.len + 1 := len_keys m hL.cols
  have hwr : ∀ l ∈ withKeys m R.pts.getNames L.data.length R.data, l.length = R.fts.len + 1 := len_keys m hR.cols
  have hfill := filled_keys' m (names := L.pts.getNames) (add := 0) (noneMissing_filled hF hn)
  have hmates : ∀ i, i < L.data.length →
      matesIdx m.nan 0 0 (withKeys m L.pts.getNames 0 L.data)
        (withKeys m R.pts.getNames L.data.length R.data) i = nameMates L.pts.getNames R.pts.getNames i :=
    fun i hi => matesIdx_names m (by rw [hpL, hL.rows]) (by rw [hpR, hR.rows]) hi
  have hcore := mergeCore_spec (nan := m.nan) (point := point) (onL := 0) (onR := 0)
    (mL := 0 :: mL.map (· + 1)) (mR := 0 :: mR.map (· + 1))
    hne hne' hwl hwr (by simp [hF.len]) (nodup_keys hF.nodupL) (nodup_keys hF.nodupR)
    (by
      intro j hj
      rcases List.mem_cons.1 hj with rfl | hj
      · omega
      · obtain ⟨k, hk, rfl⟩ := List.mem_map.1 hj
        have := hF.ltR hk
        omega)
    (by
      intro i hi
      rw [length_withKeys] at hi
      left
      rw [hmates i hi, hP.nameMates_eq]
      cases mateIn _ _ i <;> simp)
  rw [length_withKeys, length_withKeys, matCore_eq hne hne' hwl hwr hfill] at hcore
  dsimp only at hcore
  have hmlt : ∀ i, i < L.pts.len → ∀ j ∈ nameMates L.pts.getNames R.pts.getNames i, j < R.pts.len := by
    intro i _ j hj
    have : j < R.pts.getNames.length := by simpa using (List.mem_filter.1 hj).1
    rw [hpR] at this; exact this
  have hconf := not_conflict_iff hL hR m.nan hF (mates := nameMates L.pts.getNames R.pts.getNames) hmlt
  have hagree : (∀ i, i < L.data.length → ∀ j ∈ matesIdx m.nan 0 0
        (withKeys m L.pts.getNames 0 L.data) (withKeys m R.pts.getNames L.data.length R.data) i,
        ∀ p ∈ (0 :: mL.map (· + 1)).zip (0 :: mR.map (· + 1)),
        Agree m.nan (rowCell m.nan ((withKeys m L.pts.getNames 0 L.data).getD i []) p.1)
          (rowCell m.nan ((withKeys m R.pts.getNames L.data.length R.data).getD j []) p.2)) ↔
      ¬ Conflict m.nan L R (nameMates L.pts.getNames R.pts.getNames) := by
    rw [← hconf]
    have key : ∀ i, i < L.data.length → ∀ j ∈ nameMates L.pts.getNames R.pts.getNames i,
        ((∀ p ∈ (0 :: mL.map (· + 1)).zip (0 :: mR.map (· + 1)),
        Agree m.nan (rowCell m.nan ((withKeys m L.pts.getNames 0 L.data).getD i []) p.1)
          (rowCell m.nan ((withKeys m R.pts.getNames L.data.length R.data).getD j []) p.2)) ↔
        ∀ p ∈ mL.zip mR, Agree m.nan (rowCell m.nan (L.data.getD i []) p.1)
          (rowCell m.nan (R.data.getD j []) p.2)) := by
      intro i hi j hj
      have hj' : j < R.data.length := by rw [hR.rows]; exact hmlt i (by rw [← hL.rows]; exact hi) j hj
      rw [getD_withKeys m _ _ hi, getD_withKeys m _ _ hj']
      have hkey : pyEqv m.nan (ptKey m R.pts.getNames L.data.length j) (ptKey m L.pts.getNames 0 i) = true := by
        rw [ptKey_eq_iff m hi (by rw [hpL, hL.rows]) (by rw [hpR, ← hR.rows]; exact hj')]
        simpa using (List.mem_filter.1 hj).2
      have hkey' : ptKey m L.pts.getNames 0 i = ptKey m R.pts.getNames L.data.length j := by
        simp only [pyEqv, decide_eq_true_eq] at hkey
        exact hkey.1.symm
      rw [List.zip_cons_cons, List.zip_map]
      constructor
      · intro h p hp
        have := h (p.1 + 1, p.2 + 1) (by
          apply List.mem_cons_of_mem
          exact List.mem_map.2 ⟨p, hp, rfl⟩)
        simpa [rowCell] using this
      · intro h p hp
        rcases List.mem_cons.1 hp with rfl | hp
        · left
          simp only [rowCell, List.getD_cons_zero]
          exact hkey'
        · obtain ⟨q, hq, rfl⟩ := List.mem_map.1 hp
          have := h q hq
          simpa [rowCell] using this
    constructor
    · intro h i hi j hj
      have hi' : i < L.data.length := by rw [hL.rows]; exact hi
      exact (key i hi' j hj).1 (h i hi' j (by rw [hmates i hi']; exact hj))
    · intro h i hi j hj
      rw [hmates i hi] at hj
      exact (key i hi j hj).2 (h i (by rw [← hL.rows]; exact hi) j hj)
  rw [hagree] at hcore
  refine ⟨fun hc => ⟨_, hcore.1 hc, ?_, ?_⟩, fun hc => hcore.2 (not_not.2 hc)⟩
  · intro r hr
    obtain ⟨p, _, rfl⟩ := List.mem_map.1 hr
    intro h0
    have := congrArg List.length h0
    simp [outRow, colsOf] at this
  · have hj : joined point L.data.length R.data.length
        (matesIdx m.nan 0 0 (withKeys m L.pts.getNames 0 L.data)
          (withKeys m R.pts.getNames L.data.length R.data)) = joinPts point L R := by
      unfold joinPts
      rw [← hL.rows, ← hR.rows]
      unfold joined
      congr 1
      · apply List.flatMap_congr
        intro i hi
        rw [hmates i (by simpa using hi)]
      · split
        · congr 1
          apply List.filter_congr
          intro j _
          rw [decide_eq_decide]
          constructor
          · intro h i hi
            rw [← hmates i (by simpa using hi)]
            exact h i hi
          · intro h i hi
            rw [hmates i (by simpa using hi)]
            exact h i hi
        · rfl
    rw [hj, List.map_map]
    apply List.map_congr_left
    intro p _
    simp only [Function.comp]
    have b1 := bind_withKeys m L.pts.getNames 0 L.data p.1 id
    have b2 := bind_withKeys m R.pts.getNames L.data.length R.data p.2 id
    rw [List.map_id] at b1 b2
    rw [Option.map_id] at b1 b2
    dsimp only [id] at b1 b2
    rw [b1, b2, outRow_drop _ _ _ hF.len]

/-- The join on a feature, all features kept. -/
theorem core_on (m : MergeVals V) {L R : Obj V} (hL : L.WF) (hR : R.WF) (hnL : 0 < L.pts.len)
    (hnR : 0 < R.pts.len) (point : MergeMode) {mL mR : List Nat}
    (hF : Matching L.fts.getNames R.fts.getNames mL mR) (hn : NoneMissing m.nan L R) {iL iR : Nat}
    (hiL : iL < L.fts.len) (hiR : iR < R.fts.len) :
    (¬ Conflict m.nan L R (valueMates m.nan L R iL iR) →
      matCore m.nan point mL mR iL iR L.fts.len R.fts.len L.data R.data =
        .ok ((joinPtsOn m.nan point L R iL iR).map (fun p =>
          outRow m.nan (colsOf L.fts.len mL mR R.fts.len) (p.1.bind (L.data[·]?)) (p.2.bind (R.data[·]?))))) ∧
    (Conflict m.nan L R (valueMates m.nan L R iL iR) →
      matCore m.nan point mL mR iL iR L.fts.len R.fts.len L.data R.data = .error .InvalidArgumentValue) := by
  have hlR := hR.fts.length_getNames
  have hne : L.data ≠ [] := by
    intro e
    have := congrArg List.length e
    rw [hL.rows, List.length_nil] at this
    omega
  have hne' : R.data ≠ [] := by
    intro e
    have := congrArg List.length e
    rw [hR.rows, List.length_nil] at this
    omega
  have hfill := noneMissing_filled hF hn
  have hmates : ∀ i, i < L.data.length → matesIdx m.nan iL iR L.data R.data i = valueMates m.nan L R iL iR i := by
    intro i hi
    unfold matesIdx valueMates
    rw [hR.rows]
    apply List.filter_congr
    intro j hj
    have hj : j < R.pts.len := by simpa using hj
    rw [elem?_rowCell hL m.nan (by rw [← hL.rows]; exact hi) hiL, elem?_rowCell hR m.nan hj hiR]
    unfold pyEqv
    rw [decide_eq_decide]
    simp only [ne_eq, Option.some.injEq]
    constructor
    · rintro ⟨h1, h2⟩; exact ⟨h1.symm, by rw [← h1]; exact h2⟩
    · rintro ⟨h1, h2⟩; exact ⟨h1.symm, by rw [← h1]; exact h2⟩
  have hcore := mergeCore_spec (nan := m.nan) (point := point) (onL := iL) (onR := iR)
    (mL := mL) (mR := mR) hne hne' hL.cols hR.cols hF.len hF.nodupL hF.nodupR
    (fun j hj => by have := hF.ltR hj; omega) (by
      intro i hi
      right
      exact hfill _ (getD_mem hi))
  rw [matCore_eq hne hne' hL.cols hR.cols hfill] at hcore
  dsimp only at hcore
  have hmlt : ∀ i, i < L.pts.len → ∀ j ∈ valueMates m.nan L R iL iR i, j < R.pts.len := by
    intro i _ j hj
    simpa using (List.mem_filter.1 hj).1
  have hconf := not_conflict_iff hL hR m.nan hF (mates := valueMates m.nan L R iL iR) hmlt
  have hagree : (∀ i, i < L.data.length → ∀ j ∈ matesIdx m.nan iL iR L.data R.data i, ∀ p ∈ mL.zip mR,
        Agree m.nan (rowCell m.nan (L.data.getD i []) p.1) (rowCell m.nan (R.data.getD j []) p.2)) ↔
      ¬ Conflict m.nan L R (valueMates m.nan L R iL iR) := by
    rw [← hconf]
    constructor
    · intro h i hi j hj
      have hi' : i < L.data.length := by rw [hL.rows]; exact hi
      exact h i hi' j (by rw [hmates i hi']; exact hj)
    · intro h i hi j hj
      rw [hmates i hi] at hj
      exact h i (by rw [← hL.rows]; exact hi) j hj
  rw [hagree] at hcore
  refine ⟨fun hc => ?_, fun hc => hcore.2 (not_not.2 hc)⟩
  have hj : joined point L.data.length R.data.length (matesIdx m.nan iL iR L.data R.data) =
      joinPtsOn m.nan point L R iL iR := by
    unfold joinPtsOn
    rw [← hL.rows, ← hR.rows]
    unfold joined
    congr 1
    · apply List.flatMap_congr
      intro i hi
      rw [hmates i (by simpa using hi)]
    · split
      · congr 1
        apply List.filter_congr
        intro j _
        rw [decide_eq_decide]
        constructor
        · intro h i hi
          rw [← hmates i (by simpa using hi)]
          exact h i hi
        · intro h i hi
          rw [hmates i (by simpa using hi)]
          exact h i hi
      · rfl
  rw [hcore.1 hc, hj]

/-- The features of the join, selected from all features. -/
def selFts (feature : MergeMode) (n : Nat) (mL : List Nat) (pt : List V) : List V :=
  match feature with
  | .intersection => pick pt mL
  | .left => pt.take n
  | .union => pt

theorem selFts_outRow {L R : List (Option String)} {mL mR : List Nat} (h : Matching L R mL mR) (feature : MergeMode)
    (nan : V) (hasc : feature = .intersection → mL = (List.range L.length).filter (fun i => decide (i ∈ mL)))
    (l r : Option (List V)) :
    selFts feature L.length mL (outRow nan (colsOf L.length mL mR R.length) l r) =
      outRow nan (joined feature L.length R.length (nameMates L R)) l r := by
  cases feature with
  | union => rw [h.joined_union]; rfl
  | left =>
    rw [h.joined_left]
    unfold selFts colsOf
    rw [outRow_append]
    simp only
    rw [List.take_left' (by simp [outRow])]
  | intersection =>
    rw [h.joined_intersection, ← hasc rfl]
    unfold selFts colsOf
    rw [outRow_append]
    simp only
    unfold pick
    conv => rhs; unfold outRow; rw [List.map_map, ← List.filterMap_eq_map]
    apply List.filterMap_congr
    intro i hi
    have hlt : i < L.length := h.ltL hi
    rw [List.getElem?_append_left (by simpa [outRow] using hlt)]
    unfold outRow
    rw [List.getElem?_map, List.getElem?_map, List.getElem?_range hlt]
    rfl

end

namespace Sp
variable {V : Type} [DecidableEq V]
open Obj

omit [DecidableEq V] in
theorem selectPt_keyed {feature : MergeMode} {p : SpPrep V} {n : Nat} {mL : List Nat} (hk : p.keyed = true)
    (hw : p.wL = n + 1) (hm : p.mL = 0 :: mL.map (· + 1)) {r : List V} (hr : r ≠ []) :
    selectPt feature p r = selFts feature n mL (r.drop 1) := by
  obtain ⟨k, q, rfl⟩ := List.exists_cons_of_ne_nil hr
  unfold selectPt selFts
  rw [hk, hw, hm]
  cases feature with
  | union => rfl
  | left => rfl
  | intersection =>
    simp only [if_true, pick, List.filterMap_cons, List.getElem?_cons_zero, List.drop_succ_cons, List.drop_zero,
      List.filterMap_map]
    rfl

omit [DecidableEq V] in
theorem selectPt_plain {feature : MergeMode} {p : SpPrep V} {n : Nat} {mL : List Nat} (hk : p.keyed = false)
    (hw : p.wL = n) (hm : p.mL = mL) (r : List V) :
    selectPt feature p r = selFts feature n mL r := by
  unfold selectPt selFts
  rw [hk, hw, hm]
  cases feature <;> rfl

/-! ## Well-formed objects -/

section
variable [Zero V]

/-- A proper `Sparse` object. -/
structure SpObj.WF (s : SpObj V) : Prop where
  coo : s.coo.WF
  nP : s.pts.len = s.coo.rows
  nF : s.fts.len = s.coo.cols
  pts : s.pts.Ok
  fts : s.fts.Ok

omit [DecidableEq V] in
theorem SpObj.WF.obj {s : SpObj V} (h : s.WF) : s.obj.WF where
  rows := by simp [SpObj.obj, tableOf, h.nP]
  cols := by
    intro r hr
    obtain ⟨i, _, rfl⟩ := List.mem_map.1 hr
    simp [SpObj.obj, h.nF]
  pts := h.pts
  fts := h.fts

omit [DecidableEq V] in
theorem obj_elem? {s : SpObj V} (h : s.WF) (i j : Nat) :
    s.obj.elem? i j = if i < s.coo.rows ∧ j < s.coo.cols then some (s.coo.at i j) else none := by
  unfold Obj.elem? SpObj.obj
  rw [tableOf_eq h.coo.nodup]
  by_cases hi : i < s.coo.rows
  · rw [Coo.dense_getElem hi]
    simp only [Option.bind_some, List.getElem?_map]
    by_cases hj : j < s.coo.cols
    · rw [List.getElem?_range hj, if_pos ⟨hi, hj⟩]; rfl
    · rw [List.getElem?_eq_none (by simpa using hj), if_neg (fun h => hj h.2)]; rfl
  · rw [List.getElem?_eq_none (by rw [Coo.length_dense]; omega), if_neg (fun h => hi h.1)]
    rfl

omit [DecidableEq V] in
theorem tableOf_sort {c : Coo V} (h : c.WF) : tableOf (c.sortInternal .feature false) = tableOf c := by
  have hs := Coo.sortInternal_spec h.toCore .feature false false (fun _ => h)
  rw [tableOf_eq hs.wf.nodup, tableOf_eq h.nodup, hs.dense h.nodup]

/-! ## The prepared entries -/

private theorem rows_keyed (m : MergeVals V) (names : List (Option String)) (add : Nat) (c : Coo V) :
    (List.range c.rows).map (denseRow (c.cols + 1) (augment ((List.range c.rows).map (ptKey m names add)) c.ents)) =
      withKeys m names add (tableOf c) := by
  apply List.ext_getElem (by rw [length_withKeys]; simp [tableOf])
  intro i h1 h2
  have hi : i < c.rows := by simpa using h1
  have := getElem?_withKeys m names add (tableOf c) i
  rw [List.getElem?_eq_getElem h2, List.getElem?_eq_getElem (by simpa [tableOf] using hi)] at this
  simp only [Option.map_some, Option.some.injEq] at this
  rw [this, List.getElem_map, List.getElem_range, denseRow_augment _ _ (by simpa using hi)]
  simp [tableOf]

omit [DecidableEq V] in
private theorem col_keyed (m : MergeVals V) (nan : V) (names : List (Option String)) (add : Nat) (c : Coo V) :
    column (augment ((List.range c.rows).map (ptKey m names add)) c.ents) 0 =
      (List.range c.rows).map (fun i => rowCell nan (denseRow (c.cols + 1)
        (augment ((List.range c.rows).map (ptKey m names add)) c.ents) i) 0) := by
  rw [column_augment]
  apply List.map_congr_left
  intro i hi
  have hi : i < c.rows := by simpa using hi
  rw [denseRow_augment _ _ (by simpa using hi)]
  simp [rowCell]

/-- The other object has no zero in the features only it has. -/
def OwnNonzero (L R : SpObj V) : Prop :=
  ∀ j b, (∀ a, b ∉ nameMates L.fts.getNames R.fts.getNames a) → R.obj.elem? j b ≠ some 0

omit [DecidableEq V] in
private theorem own_at {L R : SpObj V} (hR : R.WF) {mL mR : List Nat}
    (hF : Matching L.fts.getNames R.fts.getNames mL mR) (hz : OwnNonzero L R) {j b : Nat} (hj : j < R.coo.rows)
    (hb : b < R.coo.cols) (hm : b ∉ mR) : R.coo.at j b ≠ 0 := by
  have := hz j b (by
    intro a ha
    apply hm
    rw [hF.nameMates_eq] at ha
    rw [hF.mem_right]
    exact ⟨a, by simpa using ha⟩)
  rw [obj_elem? hR, if_pos ⟨hj, hb⟩] at this
  exact fun h => this (by rw [h])

theorem spRows_names (m : MergeVals V) {L R : SpObj V} (hL : L.WF) (hR : R.WF) (point feature : MergeMode)
    {mL mR : List Nat} (hF : Matching L.fts.getNames R.fts.getNames mL mR)
    (hz : point = .union → feature = .union → OwnNonzero L R) :
    spRows m.nan point feature (spPrep m L.pts.getNames R.pts.getNames (L.coo.sortInternal .feature false)
      (R.coo.sortInternal .feature false) mL mR none) =
    (matCore m.nan point (0 :: mL.map (· + 1)) (0 :: mR.map (· + 1)) 0 0 (L.fts.len + 1) (R.fts.len + 1)
        (withKeys m L.pts.getNames 0 L.obj.data) (withKeys m R.pts.getNames L.obj.data.length R.obj.data)).map
      (List.map (selectPt feature (spPrep m L.pts.getNames R.pts.getNames (L.coo.sortInternal .feature false)
        (R.coo.sortInternal .feature false) mL mR none))) := by
  have hc := Coo.sortInternal_spec hL.coo.toCore .feature false false (fun _ => hL.coo)
  have hd := Coo.sortInternal_spec hR.coo.toCore .feature false false (fun _ => hR.coo)
  have tc := tableOf_sort hL.coo
  have td := tableOf_sort hR.coo
  generalize L.coo.sortInternal .feature false = c at hc tc
  generalize R.coo.sortInternal .feature false = d at hd td
  have hlL := hL.fts.length_getNames
  have key := spRows_eq (nan := m.nan) (point := point) (feature := feature) (nL := c.rows) (nR := d.rows)
    (p := spPrep m L.pts.getNames R.pts.getNames c d mL mR none)
    (col_keyed m m.nan _ _ c) (col_keyed m m.nan _ _ d) (by
      intro hp j hj
      apply spNew_eq
      · intro i hi
        rcases List.mem_cons.1 hi with rfl | hi
        · exact Nat.succ_pos _
        · obtain ⟨k, hk, rfl⟩ := List.mem_map.1 hi
          have h1 := hF.ltL hk
          have h2 := hL.nF
          have h3 := hc.cols
          show k + 1 < c.cols + 1
          omega
      · intro hf
        show ((augment ((List.range d.rows).map (ptKey m R.pts.getNames c.rows)) d.ents).filter
          (fun e => decide (e.row = j ∧ e.col ∉ 0 :: mR.map (· + 1)))).map Ent.val =
          dropIdx (denseRow (d.cols + 1) (augment ((List.range d.rows).map (ptKey m R.pts.getNames c.rows)) d.ents) j)
            (0 :: mR.map (· + 1))
        rw [rest_augment, rest_full hd.wf hd.sorted, denseRow_augment _ _ (by simpa using hj)]
        · unfold dropIdx pick
          rw [List.length_cons, length_denseRow, List.range_succ_eq_map, List.filter_cons, if_neg (by simp),
            List.filter_map, List.filterMap_map]
          have hfe : ((fun j => decide (j ∉ 0 :: mR.map (· + 1))) ∘ Nat.succ) = fun j => decide (j ∉ mR) := by
            funext k
            simp [Function.comp]
          rw [hfe, ← List.filterMap_eq_map]
          apply List.filterMap_congr
          intro k hk
          have : k < d.cols := by simpa using (List.mem_filter.1 hk).1
          simp only [Function.comp, Nat.succ_eq_add_one, List.getElem?_cons_succ]
          rw [denseRow_eq hd.wf.nodup, List.getElem?_map, List.getElem?_range this]
          rfl
        · intro b hb hm
          rw [Coo.at_perm hR.coo.nodup hd.perm]
          exact own_at hR hF (hz hp hf) (by rw [← hd.rows]; exact hj) (by rw [← hd.cols]; exact hb) hm)
  rw [key]
  congr 1
  show matCore m.nan point (0 :: mL.map (· + 1)) (0 :: mR.map (· + 1)) 0 0 (c.cols + 1) (d.cols + 1)
    ((List.range c.rows).map (denseRow (c.cols + 1)
      (augment ((List.range c.rows).map (ptKey m L.pts.getNames 0)) c.ents)))
    ((List.range d.rows).map (denseRow (d.cols + 1)
      (augment ((List.range d.rows).map (ptKey m R.pts.getNames c.rows)) d.ents))) = _
  rw [rows_keyed, rows_keyed, tc, td, hL.nF, hR.nF, hc.cols, hd.cols]
  have : L.obj.data.length = c.rows := by rw [hL.obj.rows, hc.rows]; exact hL.nP
  rw [this]
  rfl

omit [DecidableEq V] in
private theorem col_on {c : Coo V} (h : c.WF) (hs : c.sorted = some .feature) (nan : V) {j : Nat} (hj : j < c.cols)
    (hz : ∀ i < c.rows, c.at i j ≠ 0) :
    column c.ents j = (List.range c.rows).map (fun i => rowCell nan (denseRow c.cols c.ents i) j) := by
  rw [column_full h hs hz]
  apply List.map_congr_left
  intro i _
  rw [denseRow_eq h.nodup]
  simp [rowCell, List.getD_eq_getElem?_getD, hj]

/-- The feature has no zeros. -/
def FtNonzero (s : SpObj V) (a : Nat) : Prop := ∀ i, s.obj.elem? i a ≠ some 0

theorem spRows_on (m : MergeVals V) {L R : SpObj V} (hL : L.WF) (hR : R.WF) (point feature : MergeMode)
    {mL mR : List Nat} (hF : Matching L.fts.getNames R.fts.getNames mL mR) {iL iR : Nat} (hiL : iL < L.fts.len)
    (hiR : iR < R.fts.len) (hzL : FtNonzero L iL) (hzR : FtNonzero R iR)
    (hz : point = .union → feature = .union → OwnNonzero L R) :
    spRows m.nan point feature (spPrep m L.pts.getNames R.pts.getNames (L.coo.sortInternal .feature false)
      (R.coo.sortInternal .feature false) mL mR (some (iL, iR))) =
    (matCore m.nan point mL mR iL iR L.fts.len R.fts.len L.obj.data R.obj.data).map
      (List.map (selectPt feature (spPrep m L.pts.getNames R.pts.getNames (L.coo.sortInternal .feature false)
        (R.coo.sortInternal .feature false) mL mR (some (iL, iR))))) := by
  have hc := Coo.sortInternal_spec hL.coo.toCore .feature false false (fun _ => hL.coo)
  have hd := Coo.sortInternal_spec hR.coo.toCore .feature false false (fun _ => hR.coo)
  have tc := tableOf_sort hL.coo
  have td := tableOf_sort hR.coo
  have zl : ∀ i < L.coo.rows, L.coo.at i iL ≠ 0 := by
    intro i hi h0
    apply hzL i
    rw [obj_elem? hL, if_pos ⟨hi, by rw [← hL.nF]; exact hiL⟩, h0]
  have zr : ∀ i < R.coo.rows, R.coo.at i iR ≠ 0 := by
    intro i hi h0
    apply hzR i
    rw [obj_elem? hR, if_pos ⟨hi, by rw [← hR.nF]; exact hiR⟩, h0]
  generalize L.coo.sortInternal .feature false = c at hc tc
  generalize R.coo.sortInternal .feature false = d at hd td
  have hlL := hL.fts.length_getNames
  have key := spRows_eq (nan := m.nan) (point := point) (feature := feature) (nL := c.rows) (nR := d.rows)
    (p := spPrep m L.pts.getNames R.pts.getNames c d mL mR (some (iL, iR)))
    (col_on hc.wf hc.sorted m.nan (by rw [hc.cols, ← hL.nF]; exact hiL) (fun i hi => by
      rw [Coo.at_perm hL.coo.nodup hc.perm]; exact zl i (by rw [← hc.rows]; exact hi)))
    (col_on hd.wf hd.sorted m.nan (by rw [hd.cols, ← hR.nF]; exact hiR) (fun i hi => by
      rw [Coo.at_perm hR.coo.nodup hd.perm]; exact zr i (by rw [← hd.rows]; exact hi))) (by
      intro hp j hj
      apply spNew_eq
      · intro i hi
        have h1 := hF.ltL hi
        have h2 := hL.nF
        have h3 := hc.cols
        show i < c.cols
        omega
      · intro hf
        show (d.ents.filter (fun e => decide (e.row = j ∧ e.col ∉ mR))).map Ent.val =
          dropIdx (denseRow d.cols d.ents j) mR
        rw [rest_full hd.wf hd.sorted, dropIdx_denseRow hd.wf.nodup]
        intro b hb hm
        rw [Coo.at_perm hR.coo.nodup hd.perm]
        exact own_at hR hF (hz hp hf) (by rw [← hd.rows]; exact hj) (by rw [← hd.cols]; exact hb) hm)
  rw [key]
  congr 1
  show matCore m.nan point mL mR iL iR c.cols d.cols (tableOf c) (tableOf d) = _
  rw [tc, td, hL.nF, hR.nF, hc.cols, hd.cols]
  rfl

/-! ## Writing the result -/

omit [DecidableEq V] [Zero V] in
private theorem mapM_self {A : Type} {f : A → Option A} : ∀ {l : List A}, (∀ x ∈ l, f x = some x) → l.mapM f = some l
  | [], _ => rfl
  | x :: l, h => by
    rw [List.mapM_cons, h x (by simp), mapM_self (fun y hy => h y (by simp [hy]))]
    rfl

omit [Zero V] in
private theorem toFloats_ok {fl : V → Option V} {rows : List (List V)} (hne : rows.flatten ≠ [])
    (h : ∀ r ∈ rows, ∀ v ∈ r, fl v = some v) : toFloats fl rows = .ok rows := by
  unfold toFloats
  rw [if_neg hne, mapM_self (fun r hr => mapM_self (h r hr))]

/-- Every value of the two objects can be stored as a number. -/
def Numeric (nan : V) (fl : V → Option V) (L R : SpObj V) : Prop :=
  fl nan = some nan ∧ ∀ i j v, L.obj.elem? i j = some v ∨ R.obj.elem? i j = some v → fl v = some v

omit [DecidableEq V] in
private theorem elemAt_numeric {o : Obj V} {fl : V → Option V} (h : ∀ i j v, o.elem? i j = some v → fl v = some v)
    {i j : Option Nat} {v : V} (hv : elemAt o i j = some v) : fl v = some v := by
  cases i with
  | none => cases hv
  | some i =>
    cases j with
    | none => cases hv
    | some j => exact h i j v hv

private theorem joinData_numeric {nan : V} {fl : V → Option V} {L R : SpObj V} (h : Numeric nan fl L R)
    (P F : List (Option Nat × Option Nat)) : ∀ r ∈ joinData nan L.obj R.obj P F, ∀ v ∈ r, fl v = some v := by
  intro r hr v hv
  obtain ⟨p, _, rfl⟩ := List.mem_map.1 hr
  obtain ⟨q, _, rfl⟩ := List.mem_map.1 hv
  rw [cellOf_elemAt, cellOf_elemAt]
  have h1 : ∀ v, elemAt R.obj p.2 q.2 = some v → fl v = some v := fun v hv =>
    elemAt_numeric (fun i j v hv => h.2 i j v (.inr hv)) hv
  have h2 : ∀ v, elemAt L.obj p.1 q.1 = some v → fl v = some v := fun v hv =>
    elemAt_numeric (fun i j v hv => h.2 i j v (.inl hv)) hv
  have h3 : fl ((elemAt R.obj p.2 q.2).getD nan) = some ((elemAt R.obj p.2 q.2).getD nan) := by
    cases he : elemAt R.obj p.2 q.2 with
    | none => exact h.1
    | some w => exact h1 w he
  cases he : elemAt L.obj p.1 q.1 with
  | none => exact h3
  | some w =>
    unfold pickCell
    dsimp only
    split
    · exact h3
    · exact h2 w he

private theorem joinData_flatten {nan : V} {L R : Obj V} {P F : List (Option Nat × Option Nat)} (hP : P ≠ [])
    (hF : F ≠ []) : (joinData nan L R P F).flatten ≠ [] := by
  obtain ⟨p, P', rfl⟩ := List.exists_cons_of_ne_nil hP
  obtain ⟨q, F', rfl⟩ := List.exists_cons_of_ne_nil hF
  simp [joinData, outRow]

omit [Zero V] in
private theorem spWidth_eq {L R : Obj V} (hL : L.WF) (hR : R.WF) (feature : MergeMode) {mL mR : List Nat}
    (hM : Matching L.fts.getNames R.fts.getNames mL mR)
    (hasc : feature = .intersection →
      mL = (List.range L.fts.getNames.length).filter (fun i => decide (i ∈ mL))) :
    spWidth feature L.fts.len R.fts.len mL = (joinFts feature L R).length := by
  rw [← width_join hL hR feature hM hasc]
  cases feature with
  | left => simp [spWidth, widthL, widthR, matchR]
  | union => simp [spWidth, widthL, widthR, matchR, hM.len]
  | intersection => simp [spWidth, widthL, widthR, matchR]

private theorem map_sel {nan : V} {L R : Obj V} (hL : L.WF) (hR : R.WF) (feature : MergeMode) {mL mR : List Nat}
    (hM : Matching L.fts.getNames R.fts.getNames mL mR)
    (hasc : feature = .intersection →
      mL = (List.range L.fts.getNames.length).filter (fun i => decide (i ∈ mL)))
    (P : List (Option Nat × Option Nat)) :
    (P.map (fun p => outRow nan (colsOf L.fts.len mL mR R.fts.len) (p.1.bind (L.data[·]?))
      (p.2.bind (R.data[·]?)))).map (selFts feature L.fts.len mL) = joinData nan L R P (joinFts feature L R) := by
  rw [List.map_map]
  unfold joinData joinFts
  apply List.map_congr_left
  intro p _
  simp only [Function.comp]
  rw [← hL.fts.length_getNames, ← hR.fts.length_getNames]
  exact selFts_outRow hM feature nan hasc _ _

/-- The data are written and the object is the join. -/
private theorem result_obj {nan : V} {L R : Obj V} {P F : List (Option Nat × Option Nat)} {pts fts : AxisSt} {w : Nat}
    (hw : w = F.length) :
    (⟨Coo.ofDense w (joinData nan L R P F), pts, fts⟩ : SpObj V).obj = ⟨joinData nan L R P F, pts, fts⟩ ∧
      (Coo.ofDense w (joinData nan L R P F)).WF := by
  have hrect : ∀ r ∈ joinData nan L R P F, r.length = w := by
    intro r hr
    obtain ⟨p, _, rfl⟩ := List.mem_map.1 hr
    simp [outRow, hw]
  obtain ⟨h1, h2⟩ := Coo.C18_ofDense hrect
  refine ⟨?_, h1⟩
  unfold SpObj.obj
  rw [tableOf_eq h1.nodup, h2]

/-- **C94** (Sparse, on point names): the merge of two non-empty `Sparse` objects on point names is the documented join
(see C19) and the result is a proper `Sparse` object, if no value of the calling object in a common feature is missing,
all values are numbers, the join is not empty and, where points and features of both are kept (`union`), the features
that only the other object has contain no zero.  A conflict of values is refused and the caller keeps its elements. -/
theorem C94_sparse_join_partial (m : MergeVals V) (fl : V → Option V) {L R : SpObj V} (hL : L.WF) (hR : R.WF)
    (hpl : L.pts.namesCreated) (hpr : R.pts.namesCreated) (hfl : L.fts.namesCreated) (hfr : R.fts.namesCreated)
    (hnL : 0 < L.pts.len) (hnR : 0 < R.pts.len) (point feature : MergeMode)
    (hord : feature = .intersection → NamesInOrder L.fts) (hn : NoneMissing m.nan L.obj R.obj)
    (hz : point = .union → feature = .union → OwnNonzero L R) (hnum : Numeric m.nan fl L R)
    (hP : joinPts point L.obj R.obj ≠ []) (hFt : joinFts feature L.obj R.obj ≠ []) :
    (¬ Conflict m.nan L.obj R.obj (nameMates L.pts.getNames R.pts.getNames) →
      ∃ r, mergeFrontSp m fl L R point feature none = (r, .ok ()) ∧ r.WF ∧
        Merged m.nan L.obj R.obj (joinPts point L.obj R.obj) (joinFts feature L.obj R.obj) r.obj ∧
        r.pts.getNames = (joinPts point L.obj R.obj).map (nameOfPair L.pts.getNames R.pts.getNames)) ∧
    (Conflict m.nan L.obj R.obj (nameMates L.pts.getNames R.pts.getNames) →
      (mergeFrontSp m fl L R point feature none).2 = .error .InvalidArgumentValue ∧
        (mergeFrontSp m fl L R point feature none).1.obj = L.obj) := by
  obtain ⟨tpl, htpl⟩ := Option.isSome_iff_exists.1 hpl
  obtain ⟨tpr, htpr⟩ := Option.isSome_iff_exists.1 hpr
  obtain ⟨tfl, htfl⟩ := Option.isSome_iff_exists.1 hfl
  obtain ⟨tfr, htfr⟩ := Option.isSome_iff_exists.1 hfr
  have hF : Matching L.fts.getNames R.fts.getNames _ _ := matching_of hL.fts hR.fts htfl htfr
  have hasc : feature = .intersection → idxOfNames L.fts (matchingNames L.fts R.fts) =
      (List.range L.fts.getNames.length).filter
        (fun i => decide (i ∈ idxOfNames L.fts (matchingNames L.fts R.fts))) := by
    intro hf
    exact ascending_of hF (pairwise_idxOfNames hL.fts htfl htfr (hord hf))
  have hcheck : L.obj.mergeCheck m.nan R.obj none = .ok none := by
    have h1 : L.obj.pts.namesCreated := hpl
    have h2 : R.obj.pts.namesCreated := hpr
    have h3 : L.obj.fts.namesCreated := hfl
    have h4 : R.obj.fts.namesCreated := hfr
    simp [mergeCheck, h1, h2, h3, h4]
  have hrows := spRows_names m hL hR point feature hF hz
  have hcore := core_names m hL.obj hR.obj hpl hpr hnL hnR point hF hn
  have hsort := tableOf_sort hL.coo
  have hwd := spWidth_eq hL.obj hR.obj feature hF hasc
  have hc := Coo.sortInternal_spec hL.coo.toCore .feature false false (fun _ => hL.coo)
  have hd := Coo.sortInternal_spec hR.coo.toCore .feature false false (fun _ => hR.coo)
  have hw : spWidth feature (L.coo.sortInternal .feature false).cols (R.coo.sortInternal .feature false).cols
      (idxOfNames L.fts (matchingNames L.fts R.fts)) = (joinFts feature L.obj R.obj).length := by
    rw [hc.cols, hd.cols, ← hL.nF, ← hR.nF]
    exact hwd
  unfold mergeFrontSp
  rw [hcheck]
  dsimp only
  constructor
  · intro hcf
    obtain ⟨rows, e1, e2, e3⟩ := hcore.1 hcf
    rw [hrows]
    have e1' : matCore m.nan point (0 :: (idxOfNames L.fts (matchingNames L.fts R.fts)).map (· + 1))
        (0 :: (idxOfNames R.fts (matchingNames L.fts R.fts)).map (· + 1)) 0 0 (L.fts.len + 1) (R.fts.len + 1)
        (withKeys m L.pts.getNames 0 L.obj.data) (withKeys m R.pts.getNames L.obj.data.length R.obj.data) = .ok rows := e1
    rw [e1']
    have e4 : rows.map (selectPt feature (spPrep m L.pts.getNames R.pts.getNames (L.coo.sortInternal .feature false)
        (R.coo.sortInternal .feature false) (idxOfNames L.fts (matchingNames L.fts R.fts))
        (idxOfNames R.fts (matchingNames L.fts R.fts)) none)) =
        joinData m.nan L.obj R.obj (joinPts point L.obj R.obj) (joinFts feature L.obj R.obj) := by
      have e5 := map_sel (nan := m.nan) hL.obj hR.obj feature hF hasc (joinPts point L.obj R.obj)
      rw [← e5, ← e3, List.map_map]
      apply List.map_congr_left
      intro r hr
      exact selectPt_keyed rfl (by rw [show L.obj.fts.len = _ from hL.nF, ← hc.cols]; rfl) rfl (e2 r hr)
    simp only [Except.map]
    rw [e4, toFloats_ok (joinData_flatten hP hFt) (joinData_numeric hnum _ _)]
    dsimp only
    obtain ⟨f, hf1, hf2, hf3, hf4⟩ := fts_out hL.obj hR.obj htfl htfr feature
    obtain ⟨hn1, hn2⟩ := ptNames_ok hL.obj hR.obj htpl htpr point
    have hjl : (joinData m.nan L.obj R.obj (joinPts point L.obj R.obj) (joinFts feature L.obj R.obj)).length
        = (joinPts point L.obj R.obj).length := by simp [joinData]
    have hpl' : (L.obj.mergedPtNames R.obj point).length = (joinPts point L.obj R.obj).length := by rw [hn1]; simp
    have hset := setNames_list_eq ⟨(joinPts point L.obj R.obj).length, L.obj.pts.tbl⟩ (L.obj.mergedPtNames R.obj point)
    rw [if_pos ⟨hpl', hn2⟩] at hset
    rw [hw, hjl]
    unfold spNames
    simp only [Option.isNone_none, if_true]
    rw [hf1]
    dsimp only
    rw [hset]
    dsimp only
    obtain ⟨o1, o2⟩ := result_obj (nan := m.nan) (L := L.obj) (R := R.obj) (P := joinPts point L.obj R.obj)
      (F := joinFts feature L.obj R.obj) (pts := ⟨(joinPts point L.obj R.obj).length, some
        ⟨namedPairs 0 (L.obj.mergedPtNames R.obj point), L.obj.mergedPtNames R.obj point⟩⟩) (fts := f) rfl
    refine ⟨_, rfl, ⟨o2, ?_, hf3, mk_ok hpl' hn2, hf2⟩, ?_, hn1⟩
    · simp [Coo.ofDense, joinData]
    · rw [o1]
      exact merged_of (mk_ok hpl' hn2) hf2 rfl hf3 hf4
  · intro hcf
    have e1 := hcore.2 hcf
    rw [hrows]
    have e1' : matCore m.nan point (0 :: (idxOfNames L.fts (matchingNames L.fts R.fts)).map (· + 1))
        (0 :: (idxOfNames R.fts (matchingNames L.fts R.fts)).map (· + 1)) 0 0 (L.fts.len + 1) (R.fts.len + 1)
        (withKeys m L.pts.getNames 0 L.obj.data) (withKeys m R.pts.getNames L.obj.data.length R.obj.data) =
          .error .InvalidArgumentValue := e1
    rw [e1']
    refine ⟨rfl, ?_⟩
    unfold SpObj.obj
    simp only [Except.map]
    rw [hsort]

omit [DecidableEq V] [Zero V] in
private theorem check_on [DecidableEq V] (m : MergeVals V) {L R : Obj V} (hL : L.WF) (hR : R.WF) (hfl : L.fts.namesCreated)
    (hfr : R.fts.namesCreated) {f : OnFt} {s : String} (hs : L.resolveOn R f = .ok s) {iL iR : Nat}
    (hiL : L.fts.getNames[iL]? = some (some s)) (hiR : R.fts.getNames[iR]? = some (some s))
    (huniq : UniqueIn L iL ∨ UniqueIn R iR) : L.mergeCheck m.nan R (some f) = .ok (some (iL, iR)) := by
  obtain ⟨tfl, htfl⟩ := Option.isSome_iff_exists.1 hfl
  obtain ⟨tfr, htfr⟩ := Option.isSome_iff_exists.1 hfr
  have hlL := hL.fts.length_getNames
  have hlR := hR.fts.length_getNames
  have hiL' : iL < L.fts.len := by rw [← hlL]; exact (List.getElem?_eq_some_iff.1 hiL).1
  have hiR' : iR < R.fts.len := by rw [← hlR]; exact (List.getElem?_eq_some_iff.1 hiR).1
  have h1 : L.fts.getIndexByName s = .ok iL := by
    unfold AxisSt.getIndexByName
    rw [AxisSt.getNames_of_some htfl, (hL.fts tfl htfl).iff] at hiL
    rw [htfl]; simp [hiL]
  have h2 : R.fts.getIndexByName s = .ok iR := by
    unfold AxisSt.getIndexByName
    rw [AxisSt.getNames_of_some htfr, (hR.fts tfr htfr).iff] at hiR
    rw [htfr]; simp [hiR]
  have h3 : L.checkOn m.nan R s = .ok (iL, iR) := by
    unfold checkOn
    rw [h1, h2]
    dsimp only
    rw [if_pos]
    rw [columnOf_nodup hL m.nan hiL', columnOf_nodup hR m.nan hiR']
    exact huniq
  unfold mergeCheck
  rw [if_neg (by simp), if_neg (by simp [hfl, hfr])]
  simp only [bind, Except.bind, hs, h3, pure, Except.pure]

/-- **C94** (Sparse, on a feature): the merge on a feature is the documented join on its values, under the conditions of
`C94_sparse_join_partial`, if this feature has no zeros in both objects.  (As in C19, a union of points is sorted
afterwards.) -/
theorem C94_sparse_on_partial (m : MergeVals V) (fl : V → Option V) {L R : SpObj V} (hL : L.WF) (hR : R.WF)
    (hfl : L.fts.namesCreated) (hfr : R.fts.namesCreated) (hnL : 0 < L.pts.len) (hnR : 0 < R.pts.len)
    {f : OnFt} {s : String} (hs : L.obj.resolveOn R.obj f = .ok s) {iL iR : Nat}
    (hiL : L.fts.getNames[iL]? = some (some s)) (hiR : R.fts.getNames[iR]? = some (some s))
    (huniq : UniqueIn L.obj iL ∨ UniqueIn R.obj iR) (hzL : FtNonzero L iL) (hzR : FtNonzero R iR)
    (point feature : MergeMode)
    (hord : feature = .intersection → NamesInOrder L.fts) (hn : NoneMissing m.nan L.obj R.obj)
    (hz : point = .union → feature = .union → OwnNonzero L R) (hnum : Numeric m.nan fl L R)
    (hP : joinPtsOn m.nan point L.obj R.obj iL iR ≠ []) :
    (¬ Conflict m.nan L.obj R.obj (valueMates m.nan L.obj R.obj iL iR) →
      ∃ r, mergeFrontSp m fl L R point feature (some f) = (r, .ok ()) ∧ r.WF ∧
        Merged m.nan L.obj R.obj (joinPtsOn m.nan point L.obj R.obj iL iR) (joinFts feature L.obj R.obj) r.obj ∧
        r.pts.getNames = (joinPtsOn m.nan point L.obj R.obj iL iR).map (fun _ => none)) ∧
    (Conflict m.nan L.obj R.obj (valueMates m.nan L.obj R.obj iL iR) →
      (mergeFrontSp m fl L R point feature (some f)).2 = .error .InvalidArgumentValue ∧
        (mergeFrontSp m fl L R point feature (some f)).1.obj = L.obj) := by
  obtain ⟨tfl, htfl⟩ := Option.isSome_iff_exists.1 hfl
  obtain ⟨tfr, htfr⟩ := Option.isSome_iff_exists.1 hfr
  have hF : Matching L.fts.getNames R.fts.getNames _ _ := matching_of hL.fts hR.fts htfl htfr
  have hasc : feature = .intersection → idxOfNames L.fts (matchingNames L.fts R.fts) =
      (List.range L.fts.getNames.length).filter
        (fun i => decide (i ∈ idxOfNames L.fts (matchingNames L.fts R.fts))) := by
    intro hf
    exact ascending_of hF (pairwise_idxOfNames hL.fts htfl htfr (hord hf))
  have hiL' : iL < L.fts.len := by rw [← hL.fts.length_getNames]; exact (List.getElem?_eq_some_iff.1 hiL).1
  have hiR' : iR < R.fts.len := by rw [← hR.fts.length_getNames]; exact (List.getElem?_eq_some_iff.1 hiR).1
  have hcheck := check_on m hL.obj hR.obj hfl hfr hs hiL hiR huniq
  have hFt : joinFts feature L.obj R.obj ≠ [] := by
    have := mem_joinFts_on hL.obj hR.obj hiL hiR feature
    intro h0
    rw [h0] at this
    cases this
  have hrows := spRows_on m hL hR point feature hF hiL' hiR' hzL hzR hz
  have hcore := core_on m hL.obj hR.obj hnL hnR point hF hn hiL' hiR'
  have hsort := tableOf_sort hL.coo
  have hwd := spWidth_eq hL.obj hR.obj feature hF hasc
  have hc := Coo.sortInternal_spec hL.coo.toCore .feature false false (fun _ => hL.coo)
  have hd := Coo.sortInternal_spec hR.coo.toCore .feature false false (fun _ => hR.coo)
  have hw : spWidth feature (L.coo.sortInternal .feature false).cols (R.coo.sortInternal .feature false).cols
      (idxOfNames L.fts (matchingNames L.fts R.fts)) = (joinFts feature L.obj R.obj).length := by
    rw [hc.cols, hd.cols, ← hL.nF, ← hR.nF]
    exact hwd
  unfold mergeFrontSp
  rw [hcheck]
  dsimp only
  constructor
  · intro hcf
    have e1 := hcore.1 hcf
    rw [hrows]
    have e1' : matCore m.nan point (idxOfNames L.fts (matchingNames L.fts R.fts))
        (idxOfNames R.fts (matchingNames L.fts R.fts)) iL iR L.fts.len R.fts.len L.obj.data R.obj.data = _ := e1
    rw [e1']
    have e4 : ((joinPtsOn m.nan point L.obj R.obj iL iR).map (fun p =>
          outRow m.nan (colsOf L.obj.fts.len (idxOfNames L.fts (matchingNames L.fts R.fts))
            (idxOfNames R.fts (matchingNames L.fts R.fts)) R.obj.fts.len) (p.1.bind (L.obj.data[·]?))
            (p.2.bind (R.obj.data[·]?)))).map
        (selectPt feature (spPrep m L.pts.getNames R.pts.getNames (L.coo.sortInternal .feature false)
        (R.coo.sortInternal .feature false) (idxOfNames L.fts (matchingNames L.fts R.fts))
        (idxOfNames R.fts (matchingNames L.fts R.fts)) (some (iL, iR)))) =
        joinData m.nan L.obj R.obj (joinPtsOn m.nan point L.obj R.obj iL iR) (joinFts feature L.obj R.obj) := by
      have e5 := map_sel (nan := m.nan) hL.obj hR.obj feature hF hasc (joinPtsOn m.nan point L.obj R.obj iL iR)
      rw [← e5]
      apply List.map_congr_left
      intro r hr
      exact selectPt_plain rfl (by rw [show L.obj.fts.len = _ from hL.nF, ← hc.cols]; rfl) rfl r
    simp only [Except.map]
    rw [e4, toFloats_ok (joinData_flatten hP hFt) (joinData_numeric hnum _ _)]
    dsimp only
    obtain ⟨f', hf1, hf2, hf3, hf4⟩ := fts_out hL.obj hR.obj htfl htfr feature
    have hjl : (joinData m.nan L.obj R.obj (joinPtsOn m.nan point L.obj R.obj iL iR)
        (joinFts feature L.obj R.obj)).length = (joinPtsOn m.nan point L.obj R.obj iL iR).length := by simp [joinData]
    rw [hw, hjl]
    unfold spNames
    simp only [Option.isNone_some, if_false, Bool.false_eq_true]
    rw [hf1]
    dsimp only
    obtain ⟨o1, o2⟩ := result_obj (nan := m.nan) (L := L.obj) (R := R.obj)
      (P := joinPtsOn m.nan point L.obj R.obj iL iR)
      (F := joinFts feature L.obj R.obj) (pts := ⟨(joinPtsOn m.nan point L.obj R.obj iL iR).length, none⟩) (fts := f') rfl
    refine ⟨_, rfl, ⟨o2, ?_, hf3, none_ok _, hf2⟩, ?_, ?_⟩
    · simp [Coo.ofDense, joinData]
    · rw [o1]
      exact merged_of (none_ok _) hf2 rfl hf3 hf4
    · simp [AxisSt.getNames, List.map_const']
  · intro hcf
    have e1 := hcore.2 hcf
    rw [hrows]
    have e1' : matCore m.nan point (idxOfNames L.fts (matchingNames L.fts R.fts))
        (idxOfNames R.fts (matchingNames L.fts R.fts)) iL iR L.fts.len R.fts.len L.obj.data R.obj.data =
          .error .InvalidArgumentValue := e1
    rw [e1']
    refine ⟨rfl, ?_⟩
    unfold SpObj.obj
    simp only [Except.map]
    rw [hsort]

end

/-! ## Concrete cases and counterexamples -/

section
instance : Zero MV := ⟨.n 0⟩

/-- `float(v)`. -/
def mvFloat : MV → Option MV
  | .s _ => none
  | v => some v

/-- A `Sparse` object of a table whose entries are already sorted by feature. -/
def spEx (rows cols : Nat) (ents : List (Ent MV)) (ps fs : List String) : SpObj MV :=
  ⟨⟨rows, cols, ents, some .feature, none⟩, axN ps, axN fs⟩

theorem spEx_wf {rows cols : Nat} {ents : List (Ent MV)} {ps fs : List String} (hp : ps.Nodup) (hf : fs.Nodup)
    (hr : ps.length = rows) (hc : fs.length = cols) (h1 : (ents.map Ent.pos).Nodup)
    (h2 : ∀ e ∈ ents, e.row < rows ∧ e.col < cols ∧ e.val ≠ 0)
    (h3 : ents.Pairwise (fun a b => Coo.lexLe .feature a b = true)) : (spEx rows cols ents ps fs).WF where
  coo := {
    nodup := h1
    row_lt := fun e he => (h2 e he).1
    col_lt := fun e he => (h2 e he).2.1
    nonzero := fun e he => (h2 e he).2.2
    sorted_ok := by
      intro ax hax
      cases hax
      exact h3
    indices_ok := by
      intro l hl
      cases hl }
  nP := hr
  nF := hc
  pts := axN_ok hp
  fts := axN_ok hf

/-- Points 'a', 'b' and features 'k', 'x': [[1, 0], [2, 5]]. -/
def spL : SpObj MV := spEx 2 2 [⟨0, 0, .n 1⟩, ⟨1, 0, .n 2⟩, ⟨1, 1, .n 5⟩] ["a", "b"] ["k", "x"]

/-- Points 'b', 'c' and features 'k', 'y': [[2, 7], [3, 8]]. -/
def spR : SpObj MV := spEx 2 2 [⟨0, 0, .n 2⟩, ⟨1, 0, .n 3⟩, ⟨0, 1, .n 7⟩, ⟨1, 1, .n 8⟩] ["b", "c"] ["k", "y"]

theorem spL_wf : spL.WF := spEx_wf (by decide) (by decide) rfl rfl (by decide) (by decide) (by decide)
theorem spR_wf : spR.WF := spEx_wf (by decide) (by decide) rfl rfl (by decide) (by decide) (by decide)

/-- A case of `C94_sparse_join_partial` and of `C94_sparse_on_partial`. -/
example : (mergeFrontSp mvVals mvFloat spL spR .union .union none).2 = .ok () ∧
    (mergeFrontSp mvVals mvFloat spL spR .union .union none).1.obj.data =
      [[.n 1, .n 0, .nan], [.n 2, .n 5, .n 7], [.n 3, .nan, .n 8]] ∧
    (mergeFrontSp mvVals mvFloat spL spR .left .union (some (.name "k"))).1.obj.data =
      [[.n 1, .n 0, .nan], [.n 2, .n 5, .n 7]] := by decide +kernel

example : OwnNonzero spL spR ∧ FtNonzero spL 0 ∧ FtNonzero spR 0 ∧ Numeric MV.nan mvFloat spL spR ∧
    NoneMissing MV.nan spL.obj spR.obj ∧ joinPts .union spL.obj spR.obj ≠ [] := by
  have hl : ∀ i a, spL.obj.elem? i a ∈ [none, some (.n 0), some (.n 1), some (.n 2), some (MV.n 5)] := by
    intro i a
    rw [obj_elem? spL_wf]
    split
    · next h =>
      have hi : i < 2 := h.1
      have ha : a < 2 := h.2
      interval_cases i <;> interval_cases a <;> decide
    · simp
  have hr : ∀ i a, spR.obj.elem? i a ∈ [none, some (.n 2), some (.n 3), some (.n 7), some (MV.n 8)] := by
    intro i a
    rw [obj_elem? spR_wf]
    split
    · next h =>
      have hi : i < 2 := h.1
      have ha : a < 2 := h.2
      interval_cases i <;> interval_cases a <;> decide
    · simp
  refine ⟨?_, ?_, ?_, ⟨rfl, ?_⟩, ?_, by decide⟩
  · intro j b _ h
    have := hr j b
    rw [h] at this
    revert this
    decide
  · intro i h
    rw [obj_elem? spL_wf] at h
    split at h
    · next hh =>
      have hi : i < 2 := hh.1
      revert h
      interval_cases i <;> decide
    · cases h
  · intro i h
    have := hr i 0
    rw [h] at this
    revert this
    decide
  · intro i j v hv
    cases v with
    | s x =>
      rcases hv with hv | hv
      · have := hl i j
        rw [hv] at this
        simp at this
      · have := hr i j
        rw [hv] at this
        simp at this
    | nan => rfl
    | n k => rfl
  · intro i a _ h
    have := hl i a
    rw [h] at this
    revert this
    decide

/-- Points 'a', 'b' and features 'k', 'x': [[0, 5], [1, 6]]. -/
def zeroL : SpObj MV := spEx 2 2 [⟨1, 0, .n 1⟩, ⟨0, 1, .n 5⟩, ⟨1, 1, .n 6⟩] ["a", "b"] ["k", "x"]
/-- Features 'k', 'y': [[1, 7]]. -/
def oneR : SpObj MV := spEx 1 2 [⟨0, 0, .n 1⟩, ⟨0, 1, .n 7⟩] ["b"] ["k", "y"]

/-- **Violated.** With a zero in the feature merged on, the places of the stored values are taken for the places of the
points: the join is refused because the wrong point (with the value 0) is compared.  The `List` merge is the join. -/
theorem C94_sparse_zero_violated :
    zeroL.WF ∧ oneR.WF ∧
    (mergeFrontSp mvVals mvFloat zeroL oneR .left .union (some (.name "k"))).2 = .error .InvalidArgumentValue ∧
    (zeroL.obj.mergeFront mvVals oneR.obj .left .union (some (.name "k"))).2 = .ok () ∧
    (zeroL.obj.mergeFront mvVals oneR.obj .left .union (some (.name "k"))).1.data =
      [[.n 0, .n 5, .nan], [.n 1, .n 6, .n 7]] :=
  ⟨spEx_wf (by decide) (by decide) rfl rfl (by decide) (by decide) (by decide),
    spEx_wf (by decide) (by decide) rfl rfl (by decide) (by decide) (by decide),
    by decide +kernel, by decide +kernel, by decide +kernel⟩

/-- Features 'k', 'y': [[3, 7]]. -/
def threeR : SpObj MV := spEx 1 2 [⟨0, 0, .n 3⟩, ⟨0, 1, .n 7⟩] ["b"] ["k", "y"]

/-- **Violated.** With a zero in the feature merged on, a left join has one point less, without any message. -/
theorem C94_sparse_lost_violated :
    zeroL.WF ∧ threeR.WF ∧
    (mergeFrontSp mvVals mvFloat zeroL threeR .left .union (some (.name "k"))).2 = .ok () ∧
    (mergeFrontSp mvVals mvFloat zeroL threeR .left .union (some (.name "k"))).1.obj.data = [[.n 0, .n 5, .nan]] ∧
    (zeroL.obj.mergeFront mvVals threeR.obj .left .union (some (.name "k"))).1.data =
      [[.n 0, .n 5, .nan], [.n 1, .n 6, .nan]] :=
  ⟨spEx_wf (by decide) (by decide) rfl rfl (by decide) (by decide) (by decide),
    spEx_wf (by decide) (by decide) rfl rfl (by decide) (by decide) (by decide),
    by decide +kernel, by decide +kernel, by decide +kernel⟩

/-- Point 'c', features 'k', 'y', 'z': [[3, 0, 8]]. -/
def holeR : SpObj MV := spEx 1 3 [⟨0, 0, .n 3⟩, ⟨0, 2, .n 8⟩] ["c"] ["k", "y", "z"]

/-- **Violated.** A point only the other object has, with a zero in one of its own features: its later values move to
the wrong features (here the 8 of 'z' becomes the value of 'y', and 'z' is zero). -/
theorem C94_sparse_moved_violated :
    spL.WF ∧ holeR.WF ∧
    (mergeFrontSp mvVals mvFloat spL holeR .union .union none).2 = .ok () ∧
    (mergeFrontSp mvVals mvFloat spL holeR .union .union none).1.obj.data =
      [[.n 1, .n 0, .nan, .nan], [.n 2, .n 5, .nan, .nan], [.n 3, .nan, .n 8, .n 0]] ∧
    (spL.obj.mergeFront mvVals holeR.obj .union .union none).1.data =
      [[.n 1, .n 0, .nan, .nan], [.n 2, .n 5, .nan, .nan], [.n 3, .nan, .n 0, .n 8]] :=
  ⟨spL_wf, spEx_wf (by decide) (by decide) rfl rfl (by decide) (by decide) (by decide),
    by decide +kernel, by decide +kernel, by decide +kernel⟩

/-- Points 'b', feature 'k', 't': [[2, "red"]]. -/
def textR : SpObj MV := spEx 1 2 [⟨0, 0, .n 2⟩, ⟨0, 1, .s "red"⟩] ["b"] ["k", "t"]
/-- Point 'z'. -/
def otherR : SpObj MV := spEx 1 2 [⟨0, 0, .n 2⟩, ⟨0, 1, .n 4⟩] ["z"] ["k", "t"]

/-- **Violated.** Objects with text cannot be merged, and a join without points is an `AttributeError`; as `List`
objects both work. -/
theorem C94_sparse_refused_violated :
    spL.WF ∧ textR.WF ∧ otherR.WF ∧
    (mergeFrontSp mvVals mvFloat spL textR .left .union none).2 = .error .ValueError ∧
    (spL.obj.mergeFront mvVals textR.obj .left .union none).2 = .ok () ∧
    (mergeFrontSp mvVals mvFloat spL otherR .intersection .union none).2 = .error .AttributeError ∧
    (spL.obj.mergeFront mvVals otherR.obj .intersection .union none).2 = .ok () :=
  ⟨spL_wf, spEx_wf (by decide) (by decide) rfl rfl (by decide) (by decide) (by decide),
    spEx_wf (by decide) (by decide) rfl rfl (by decide) (by decide) (by decide),
    by decide +kernel, by decide +kernel, by decide +kernel, by decide +kernel⟩

end
end Sp
end Nimble
