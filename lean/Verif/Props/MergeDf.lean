import Verif.Lemmas.MergeDf
import Verif.Props.MergeCases

/-!
# C94: `merge` of DataFrame objects
-/

namespace Nimble

theorem pdFind_names {lN rN : List (Option String)} {i : Nat} {k : PdKey}
    (h : (pdIndex lN 0)[i]? = some k) : pdFind (pdIndex rN lN.length) k = nameMates lN rN i := by
  unfold pdFind nameMates
  rw [length_pdIndex]
  apply List.filter_congr
  intro j hj
  have hj : j < rN.length := by simpa using hj
  rw [getElem?_pdIndex] at h
  have hi : i < lN.length := by
    by_contra hc
    rw [List.getElem?_eq_none (by omega)] at h
    cases h
  rw [List.getElem?_eq_getElem hi] at h
  rw [decide_eq_decide, getElem?_pdIndex, List.getElem?_eq_getElem hi, List.getElem?_eq_getElem hj]
  simp only [Option.map_some, Option.some.injEq, Option.join_some] at h ⊢
  subst h
  cases h1 : lN[i] with
  | none =>
    cases h2 : rN[j] with
    | none => simp [pdKey]; omega
    | some t => simp [pdKey]
  | some s =>
    cases h2 : rN[j] with
    | none => simp [pdKey]
    | some t =>
      simp only [pdKey, PdKey.name.injEq, Option.some.injEq, ne_eq, reduceCtorEq, not_false_eq_true, true_and]
      exact eq_comm

section
variable {V : Type} [DecidableEq V]

theorem dfIdxL_eq (feature : MergeMode) (mL : List Nat) : dfIdxL feature mL = matchL feature mL := by
  cases feature <;> rfl
theorem dfIdxR_eq (feature : MergeMode) (mR : List Nat) : dfIdxR feature mR = matchR feature mR := by
  cases feature <;> rfl
theorem dfNumL_eq (feature : MergeMode) (n : Nat) (mL : List Nat) :
    dfNumL feature n mL = widthL feature n mL := by
  cases feature <;> rfl
theorem dfNumR_eq (feature : MergeMode) (n : Nat) (mR : List Nat) :
    dfNumR feature n mR = widthR feature n mR := by
  cases feature <;> rfl
theorem dfRight_eq (feature : MergeMode) (mR : List Nat) (r : List V) :
    dfRight feature mR r = sliceR feature mR r := by
  cases feature <;> rfl

theorem dfLeft_eq {L R : List (Option String)} {mL mR : List Nat} (h : Matching L R mL mR)
    (feature : MergeMode)
    (hasc : feature = .intersection → mL = (List.range L.length).filter (fun i => decide (i ∈ mL)))
    {l : List V} (hl : l.length = L.length) : dfLeft feature mL l = sliceL feature mL l := by
  cases feature with
  | left => rfl
  | union => rfl
  | intersection => exact (keepIdx_eq h hl (hasc rfl)).symm

namespace Obj

theorem dfFinish_spec {L R : Obj V} (hL : L.WF) (hR : R.WF) {tl tr : NameTable}
    (htl : L.fts.tbl = some tl) (htr : R.fts.tbl = some tr) (nan : V) (point feature : MergeMode)
    (keyed : Bool) {P : List (Option Nat × Option Nat)} {rowf : Option Nat × Option Nat → List V}
    {ps : List (Nat × Nat)} {n nF : Nat} {C : Prop} (hps : ∀ p ∈ ps, p.1 < n ∧ n ≤ p.2)
    (hnd : (ps.map Prod.fst).Nodup)
    (hrow : ∀ p ∈ P, dropIdx (fillAll nan ps (rowf p)) (ps.map Prod.snd)
      = outRow nan (joinFts feature L R) (p.1.bind (L.data[·]?)) (p.2.bind (R.data[·]?)))
    (hw : nF = (joinFts feature L R).length)
    (hc : (∀ r ∈ P.map rowf, ∀ q ∈ ps, Agree nan (rowCell nan r q.1) (rowCell nan r q.2)) ↔ ¬ C)
    (hk : keyed = true → (L.mergedPtNames R point).length = P.length ∧
      (L.mergedPtNames R point).reduceOption.Nodup) :
    (¬ C → ∃ r, L.dfFinish nan R point feature keyed nF (P.map rowf, ps) = (r, .ok ()) ∧
        Merged nan L R P (joinFts feature L R) r ∧
        (keyed = true → r.pts.getNames = L.mergedPtNames R point) ∧
        (keyed = false → r.pts.getNames = P.map (fun _ => none))) ∧
    (C → (L.dfFinish nan R point feature keyed nF (P.map rowf, ps)).2 = .error .InvalidArgumentValue) := by
  have hl := dfLoop_spec (nan := nan) ps (P.map rowf) hps hnd
  constructor
  · intro h
    have h1 := hl.1 (hc.2 h)
    have hd : ((P.map rowf).map (fillAll nan ps)).map (fun r => dropIdx r (ps.map Prod.snd))
        = joinData nan L R P (joinFts feature L R) := by
      rw [List.map_map, List.map_map]
      exact List.map_congr_left hrow
    obtain ⟨f, hf1, hf2, hf3, hf4⟩ := fts_out hL hR htl htr feature
    unfold dfFinish
    dsimp only
    rw [h1]
    dsimp only
    unfold dfNames
    dsimp only
    rw [hw, hf1]
    dsimp only
    rw [hd, List.length_map, List.length_map]
    cases keyed with
    | true =>
      simp only [if_true]
      obtain ⟨hn1, hn2⟩ := hk rfl
      have hset := setNames_list_eq ⟨P.length, L.pts.tbl⟩ (L.mergedPtNames R point)
      rw [if_pos ⟨hn1, hn2⟩] at hset
      rw [hset]
      exact ⟨_, rfl, merged_of (mk_ok hn1 hn2) hf2 rfl hf3 hf4, fun _ => rfl, fun h => by cases h⟩
    | false =>
      simp only [Bool.false_eq_true, if_false]
      refine ⟨_, rfl, merged_of (none_ok _) hf2 rfl hf3 hf4, fun h => (by cases h), fun _ => ?_⟩
      simp [AxisSt.getNames]
  · intro h
    have h1 := hl.2 (fun hh => hc.1 hh h)
    unfold dfFinish
    dsimp only
    cases hx : dfLoop nan ps (P.map rowf) with
    | mk rows out =>
      rw [hx] at h1
      dsimp only at h1
      subst h1
      rfl

theorem bind_slice (o : Obj V) (f g : List V → List V) (hfg : ∀ q ∈ o.data, f q = g q) (i : Option Nat) :
    i.bind ((o.data.map f)[·]?) = (i.bind (o.data[·]?)).map g := by
  cases i with
  | none => rfl
  | some i =>
    simp only [Option.bind_some, List.getElem?_map]
    cases h : o.data[i]? with
    | none => rfl
    | some q => simp [hfg q (List.mem_of_getElem? h)]

theorem agree_nan_left (nan b : V) : Agree nan nan b := Or.inr (Or.inl rfl)
theorem agree_nan_right (nan a : V) : Agree nan a nan := Or.inr (Or.inr rfl)

theorem rowCell_replicate (nan : V) (n i : Nat) : rowCell nan (List.replicate n nan) i = nan := by
  rw [rowCell_eq, List.getElem?_replicate]
  split <;> rfl

/-- Two rows of the merged frame agree in the matching columns. -/
theorem agree_pdRow {nan : V} {ps : List (Nat × Nat)} {n w : Nat} (hb : ∀ p ∈ ps, p.1 < n)
    (l r : Option (List V)) (hl : ∀ q, l = some q → q.length = n) :
    (∀ q ∈ ps.map (fun p => (p.1, p.2 + n)), Agree nan (rowCell nan (pdRow nan n w l r) q.1)
      (rowCell nan (pdRow nan n w l r) q.2)) ↔
    ∀ a b, l = some a → r = some b → ∀ p ∈ ps, Agree nan (rowCell nan a p.1) (rowCell nan b p.2) := by
  have hlen : (l.getD (List.replicate n nan)).length = n := by
    cases l with
    | none => simp
    | some l => exact hl l rfl
  have h1 : ∀ p ∈ ps, rowCell nan (pdRow nan n w l r) p.1 = rowCell nan (l.getD (List.replicate n nan)) p.1 := by
    intro p hp
    exact rowCell_append_left (by rw [hlen]; exact hb p hp)
  have h2 : ∀ p ∈ ps, rowCell nan (pdRow nan n w l r) (p.2 + n)
      = rowCell nan (r.getD (List.replicate w nan)) p.2 := by
    intro p _
    have := rowCell_append_right (nan := nan) (l := l.getD (List.replicate n nan))
      (r := r.getD (List.replicate w nan)) (b := p.2)
    rw [hlen] at this
    exact this
  rw [List.forall_mem_map]
  constructor
  · intro h a b ha hb p hp
    have := h p hp
    rw [h1 p hp, h2 p hp, ha, hb] at this
    exact this
  · intro h p hp
    dsimp only
    rw [h1 p hp, h2 p hp]
    cases l with
    | none => rw [Option.getD_none, rowCell_replicate]; exact agree_nan_left _ _
    | some a =>
      cases r with
      | none => rw [Option.getD_none, rowCell_replicate]; exact agree_nan_right _ _
      | some b => exact h a b rfl rfl p hp

/-- The same for the frame of a join on a column. -/
theorem agree_pdRowOn {nan : V} {mL mR : List Nat} {n w : Nat} (_hl : mL.length = mR.length)
    (hnL : mL.Nodup) (hnR : mR.Nodup) (hb : ∀ p ∈ mL.zip mR, p.1 < n) {onL onR : Nat}
    (hon : (onL, onR) ∈ mL.zip mR) (l r : Option (List V)) (hl : ∀ q, l = some q → q.length = n)
    (hkey : ∀ a b, l = some a → r = some b → rowCell nan a onL = rowCell nan b onR) :
    (∀ q ∈ dfOnPairs n onL onR (mL.zip mR), Agree nan (rowCell nan (pdRowOn nan n w onL onR l r) q.1)
      (rowCell nan (pdRowOn nan n w onL onR l r) q.2)) ↔
    ∀ a b, l = some a → r = some b → ∀ p ∈ mL.zip mR, Agree nan (rowCell nan a p.1) (rowCell nan b p.2) := by
  rw [dfOnPairs_eq]
  unfold relOn
  rw [List.map_map, List.forall_mem_map]
  have hlen : (l.getD ((List.replicate n nan).set onL (rowCell nan (r.getD []) onR))).length = n := by
    cases l with
    | none => simp
    | some l => exact hl l rfl
  have h1 : ∀ p ∈ mL.zip mR, rowCell nan (pdRowOn nan n w onL onR l r) p.1
      = rowCell nan (l.getD ((List.replicate n nan).set onL (rowCell nan (r.getD []) onR))) p.1 := by
    intro p hp
    exact rowCell_append_left (by rw [hlen]; exact hb p hp)
  have h2 : ∀ p ∈ mL.zip mR, p.1 ≠ onL → rowCell nan (pdRowOn nan n w onL onR l r) (shiftPast onR p.2 + n)
      = rowCell nan (r.getD (List.replicate w nan)) p.2 := by
    intro p hp hne
    have := rowCell_append_right (nan := nan)
      (l := l.getD ((List.replicate n nan).set onL (rowCell nan (r.getD []) onR)))
      (r := (r.getD (List.replicate w nan)).eraseIdx onR) (b := shiftPast onR p.2)
    rw [hlen, rowCell_erase (fun e => hne ((zip_functional hnL hnR hp hon).2 e))] at this
    exact this
  constructor
  · intro h a b ha hb p hp
    by_cases he : p.1 = onL
    · have h3 := (zip_functional hnL hnR hp hon).1 he
      dsimp only at h3
      rw [he, h3]
      exact Or.inl (hkey a b ha hb)
    · have := h p (List.mem_filter.2 ⟨hp, by simpa using he⟩)
      simp only [Function.comp] at this
      rw [h1 p hp, h2 p hp he, ha, hb] at this
      exact this
  · intro h p hp
    obtain ⟨hp, hne⟩ := List.mem_filter.1 hp
    have hne : p.1 ≠ onL := by simpa using hne
    simp only [Function.comp]
    rw [h1 p hp, h2 p hp hne]
    cases l with
    | none =>
      rw [Option.getD_none, rowCell_set hne, rowCell_replicate]
      exact agree_nan_left _ _
    | some a =>
      cases r with
      | none =>
        have : rowCell nan ((none : Option (List V)).getD (List.replicate w nan)) p.2 = nan :=
          rowCell_replicate nan w p.2
        rw [this]; exact agree_nan_right _ _
      | some b => exact h a b rfl rfl p hp

/-- The pairs of points agree if and only if there is no conflict. -/
theorem pairs_conflict {nan : V} {L R : Obj V} (hL : L.WF) (hR : R.WF) {mL mR : List Nat}
    (hF : Matching L.fts.getNames R.fts.getNames mL mR) (feature : MergeMode)
    (hasc : feature = .intersection →
      mL = (List.range L.fts.getNames.length).filter (fun i => decide (i ∈ mL)))
    {mates : Nat → List Nat} (hm : ∀ i, i < L.pts.len → ∀ j ∈ mates i, j < R.pts.len)
    {P : List (Option Nat × Option Nat)}
    (hP : ∀ i j, (some i, some j) ∈ P ↔ i < L.pts.len ∧ j ∈ mates i) :
    (∀ p ∈ P, ∀ a b, (p.1.bind (L.data[·]?)).map (sliceL feature mL) = some a →
      (p.2.bind (R.data[·]?)).map (sliceR feature mR) = some b →
      ∀ q ∈ (matchL feature mL).zip (matchR feature mR), Agree nan (rowCell nan a q.1) (rowCell nan b q.2)) ↔
    ¬ Conflict nan L R mates := by
  have hlL := hL.fts.length_getNames
  have hlR := hR.fts.length_getNames
  rw [← not_conflict_iff hL hR nan hF hm]
  have hsl : ∀ i j, i < L.pts.len → j < R.pts.len →
      ((∀ q ∈ (matchL feature mL).zip (matchR feature mR),
        Agree nan (rowCell nan (sliceL feature mL (L.data.getD i [])) q.1)
          (rowCell nan (sliceR feature mR (R.data.getD j [])) q.2)) ↔
        ∀ p ∈ mL.zip mR, Agree nan (rowCell nan (L.data.getD i []) p.1) (rowCell nan (R.data.getD j []) p.2)) := by
    intro i j hi hj
    apply agree_slices hF feature nan hasc
    · rw [hlL]; exact hL.cols _ (getD_mem (by rw [hL.rows]; exact hi))
    · rw [hlR]; exact hR.cols _ (getD_mem (by rw [hR.rows]; exact hj))
  constructor
  · intro h i hi j hj
    have hj' := hm i hi j hj
    rw [← hsl i j hi hj']
    have hi2 : i < L.data.length := by rw [hL.rows]; exact hi
    have hj2 : j < R.data.length := by rw [hR.rows]; exact hj'
    refine h (some i, some j) ((hP i j).2 ⟨hi, hj⟩) _ _ ?_ ?_
    · simp only [Option.bind_some]
      rw [getD_eq_some (d := []) hi2]; rfl
    · simp only [Option.bind_some]
      rw [getD_eq_some (d := []) hj2]; rfl
  · rintro h ⟨p1, p2⟩ hp a b ha hb
    cases p1 with
    | none => cases ha
    | some i =>
      cases p2 with
      | none => cases hb
      | some j =>
        obtain ⟨hi, hj⟩ := (hP i j).1 hp
        have hj' := hm i hi j hj
        have hi2 : i < L.data.length := by rw [hL.rows]; exact hi
        have hj2 : j < R.data.length := by rw [hR.rows]; exact hj'
        simp only [Option.bind_some] at ha hb
        rw [getD_eq_some (d := []) hi2] at ha
        rw [getD_eq_some (d := []) hj2] at hb
        cases ha
        cases hb
        exact (hsl i j hi hj').2 (h i hi j hj)

/-! ## On point names -/

/-- The pairs of points of the merged frame, on point names. -/
def dfPts (point : MergeMode) (L R : Obj V) : List (Option Nat × Option Nat) :=
  pdIndexJoin point (pdIndex L.pts.getNames 0) (pdIndex R.pts.getNames L.pts.len)

theorem pdJoin_names {L R : Obj V} (hL : L.WF) (hR : R.WF) (point : MergeMode) :
    pdJoin point (pdIndex L.pts.getNames 0) (pdIndex R.pts.getNames L.pts.len) = joinPts point L R := by
  have hpL := hL.pts.length_getNames
  have hpR := hR.pts.length_getNames
  have h := pdJoin_eq point (pdIndex L.pts.getNames 0) (pdIndex R.pts.getNames L.pts.len)
    (nameMates L.pts.getNames R.pts.getNames) (by
      intro i k hk
      rw [← hpL]
      exact pdFind_names hk)
  rw [h, length_pdIndex, length_pdIndex, hpL, hpR]
  rfl

theorem dfPts_perm {L R : Obj V} (hL : L.WF) (hR : R.WF) (point : MergeMode) :
    (dfPts point L R).Perm (joinPts point L R) := by
  unfold dfPts pdIndexJoin
  rw [pdJoin_names hL hR]
  split
  · exact List.perm_insertionSort _ _
  · exact List.Perm.refl _

theorem frontDf_names (nan : V) (ord : List (Option Nat × Option Nat) → List (Option Nat × Option Nat))
    {L R : Obj V} (hL : L.WF) (hR : R.WF)
    (hpl : L.pts.namesCreated) (hpr : R.pts.namesCreated) (hfl : L.fts.namesCreated)
    (hfr : R.fts.namesCreated)
    (point feature : MergeMode) (hord : feature = .intersection → NamesInOrder L.fts) :
    (¬ Conflict nan L R (nameMates L.pts.getNames R.pts.getNames) →
      ∃ r, L.mergeFrontDf nan ord R point feature none = (r, .ok ()) ∧
        Merged nan L R (dfPts point L R) (joinFts feature L R) r ∧
        r.pts.getNames = (joinPts point L R).map (nameOfPair L.pts.getNames R.pts.getNames)) ∧
    (Conflict nan L R (nameMates L.pts.getNames R.pts.getNames) →
      (L.mergeFrontDf nan ord R point feature none).2 = .error .InvalidArgumentValue) := by
  obtain ⟨tpl, htpl⟩ := Option.isSome_iff_exists.1 hpl
  obtain ⟨tpr, htpr⟩ := Option.isSome_iff_exists.1 hpr
  obtain ⟨tfl, htfl⟩ := Option.isSome_iff_exists.1 hfl
  obtain ⟨tfr, htfr⟩ := Option.isSome_iff_exists.1 hfr
  have hF := matching_of hL.fts hR.fts htfl htfr
  have hlL := hL.fts.length_getNames
  have hlR := hR.fts.length_getNames
  have hpR := hR.pts.length_getNames
  have hcheck : L.mergeCheck nan R none = .ok none := by
    simp [mergeCheck, hpl, hpr, hfl, hfr]
  have hasc : feature = .intersection → idxOfNames L.fts (matchingNames L.fts R.fts) =
      (List.range L.fts.getNames.length).filter
        (fun i => decide (i ∈ idxOfNames L.fts (matchingNames L.fts R.fts))) := by
    intro hf
    exact ascending_of hF (pairwise_idxOfNames hL.fts htfl htfr (hord hf))
  obtain ⟨sl1, sl2, sl3, sl4⟩ := sliced_of hF feature
  have hfront : L.mergeFrontDf nan ord R point feature none =
      L.dfFinish nan R point feature true (L.dfNumFeatures R feature)
        (L.dfFrame nan ord R point feature none) := by
    unfold mergeFrontDf
    rw [hcheck]
    rfl
  rw [hfront]
  unfold dfNumFeatures dfFrame
  dsimp only
  generalize hmL : idxOfNames L.fts (matchingNames L.fts R.fts) = mL at hF hasc sl1 sl2 sl3 sl4
  generalize hmR : idxOfNames R.fts (matchingNames L.fts R.fts) = mR at hF sl1 sl2 sl3 sl4
  rw [dfIdxL_eq, dfIdxR_eq, dfNumL_eq, dfNumR_eq]
  have hcL : ∀ q ∈ L.data, q.length = L.fts.getNames.length := by rw [hlL]; exact hL.cols
  have hcR : ∀ q ∈ R.data, q.length = R.fts.getNames.length := by rw [hlR]; exact hR.cols
  have hbl : ∀ i : Option Nat, i.bind ((L.data.map (dfLeft feature mL))[·]?)
      = (i.bind (L.data[·]?)).map (sliceL feature mL) :=
    bind_slice L _ _ (fun q hq => dfLeft_eq hF feature hasc (hcL q hq))
  have hbr : ∀ i : Option Nat, i.bind ((R.data.map (dfRight feature mR))[·]?)
      = (i.bind (R.data[·]?)).map (sliceR feature mR) :=
    bind_slice R _ _ (fun q _ => dfRight_eq feature mR q)
  simp only [hbl, hbr]
  have hln : ∀ (i : Option Nat) q, (i.bind (L.data[·]?)).map (sliceL feature mL) = some q →
      q.length = widthL feature L.fts.len mL := by
    intro i q hq
    obtain ⟨q', hq', rfl⟩ := Option.map_eq_some_iff.1 hq
    rw [← hlL]
    apply length_sliceL hF feature hasc
    cases i with
    | none => cases hq'
    | some i => exact hcL _ (List.mem_of_getElem? hq')
  have hrn : ∀ (i : Option Nat) q, (i.bind (R.data[·]?)).map (sliceR feature mR) = some q →
      q.length = widthR feature R.fts.len mR := by
    intro i q hq
    obtain ⟨q', hq', rfl⟩ := Option.map_eq_some_iff.1 hq
    rw [← hlR]
    apply length_sliceR hF feature
    cases i with
    | none => cases hq'
    | some i => exact hcR _ (List.mem_of_getElem? hq')
  have hltL : ∀ a ∈ matchL feature mL, a < widthL feature L.fts.len mL := by
    intro a ha
    cases feature with
    | left => exact hlL ▸ hF.ltL ha
    | union => exact hlL ▸ hF.ltL ha
    | intersection => simpa [matchL, widthL] using ha
  have hmlt : ∀ i, i < L.pts.len → ∀ j ∈ nameMates L.pts.getNames R.pts.getNames i, j < R.pts.len := by
    intro i _ j hj
    have : j < R.pts.getNames.length := by simpa using (List.mem_filter.1 hj).1
    rw [hpR] at this; exact this
  obtain ⟨hn1, hn2⟩ := ptNames_ok hL hR htpl htpr point
  have hperm := dfPts_perm hL hR point
  have hspec := dfFinish_spec hL hR htfl htfr nan point feature true (P := dfPts point L R)
    (rowf := fun p => pdRow nan (widthL feature L.fts.len mL) (widthR feature R.fts.len mR)
      ((p.1.bind (L.data[·]?)).map (sliceL feature mL)) ((p.2.bind (R.data[·]?)).map (sliceR feature mR)))
    (ps := ((matchL feature mL).zip (matchR feature mR)).map
      (fun p => (p.1, p.2 + widthL feature L.fts.len mL)))
    (n := widthL feature L.fts.len mL)
    (nF := widthL feature L.fts.len mL + widthR feature R.fts.len mR - (matchR feature mR).length)
    (C := Conflict nan L R (nameMates L.pts.getNames R.pts.getNames))
    (by
      intro p hp
      obtain ⟨q, hq, rfl⟩ := List.mem_map.1 hp
      exact ⟨hltL _ (List.of_mem_zip hq).1, by dsimp only; omega⟩)
    (by
      rw [List.map_map]
      have : (List.map (Prod.fst ∘ fun p : Nat × Nat => (p.1, p.2 + widthL feature L.fts.len mL))
          ((matchL feature mL).zip (matchR feature mR))) = matchL feature mL := by
        conv_rhs => rw [← List.map_fst_zip (l₁ := matchL feature mL) (l₂ := matchR feature mR) (by omega)]
        rfl
      rw [this]; exact sl2)
    (by
      intro p _
      rw [row_out sl1 sl2 hltL _ _ (hln p.1) (hrn p.2)]
      have := outRow_slices hF feature nan hasc (p.1.bind (L.data[·]?)) (p.2.bind (R.data[·]?))
        (by
          intro q hq
          cases h : p.1 with
          | none => rw [h] at hq; cases hq
          | some i => rw [h] at hq; exact hcL q (List.mem_of_getElem? hq))
        (by
          intro q hq
          cases h : p.2 with
          | none => rw [h] at hq; cases hq
          | some i => rw [h] at hq; exact hcR q (List.mem_of_getElem? hq))
      rw [hlL, hlR] at this
      exact this)
    (by
      rw [← width_join hL hR feature hF hasc]
      have : (matchR feature mR).length ≤ widthR feature R.fts.len mR := by
        cases feature with
        | union =>
          rw [← hlR]
          have hsub : mR ⊆ List.range R.fts.getNames.length :=
            fun j hj => List.mem_range.2 (hF.ltR hj)
          simpa [matchR, widthR] using (hF.nodupR.subperm hsub).length_le
        | left => simp [matchR, widthR]
        | intersection => simp [matchR, widthR]
      omega)
    (by
      rw [← pairs_conflict hL hR hF feature hasc hmlt (P := dfPts point L R) (by
        intro i j
        rw [hperm.mem_iff]
        exact mem_joined_both), List.forall_mem_map]
      exact forall₂_congr fun p _ => agree_pdRow (fun q hq => hltL _ (List.of_mem_zip hq).1) _ _ (hln p.1))
    (fun _ => ⟨by rw [hn1, List.length_map, hperm.length_eq], hn2⟩)
  constructor
  · intro hc
    obtain ⟨r, h1, h2, h3, _⟩ := hspec.1 hc
    exact ⟨r, h1, h2, by rw [h3 rfl, hn1]⟩
  · exact hspec.2

/-! ## On a feature -/

theorem mergeCheck_on {nan : V} {L R : Obj V} (hL : L.WF) (hR : R.WF)
    (hfl : L.fts.namesCreated) (hfr : R.fts.namesCreated)
    {f : OnFt} {s : String} (hs : L.resolveOn R f = .ok s) {iL iR : Nat}
    (hiL : L.fts.getNames[iL]? = some (some s)) (hiR : R.fts.getNames[iR]? = some (some s))
    (huniq : UniqueIn L iL ∨ UniqueIn R iR) : L.mergeCheck nan R (some f) = .ok (some (iL, iR)) := by
  obtain ⟨tfl, htfl⟩ := Option.isSome_iff_exists.1 hfl
  obtain ⟨tfr, htfr⟩ := Option.isSome_iff_exists.1 hfr
  have hiL' : iL < L.fts.len := by
    rw [← hL.fts.length_getNames]; exact (List.getElem?_eq_some_iff.1 hiL).1
  have hiR' : iR < R.fts.len := by
    rw [← hR.fts.length_getNames]; exact (List.getElem?_eq_some_iff.1 hiR).1
  have h1 : L.fts.getIndexByName s = .ok iL := by
    unfold AxisSt.getIndexByName
    rw [AxisSt.getNames_of_some htfl, (hL.fts tfl htfl).iff] at hiL
    rw [htfl]; simp [hiL]
  have h2 : R.fts.getIndexByName s = .ok iR := by
    unfold AxisSt.getIndexByName
    rw [AxisSt.getNames_of_some htfr, (hR.fts tfr htfr).iff] at hiR
    rw [htfr]; simp [hiR]
  have h3 : L.checkOn nan R s = .ok (iL, iR) := by
    unfold checkOn
    rw [h1, h2]
    dsimp only
    rw [if_pos]
    rw [columnOf_nodup hL nan hiL', columnOf_nodup hR nan hiR']
    exact huniq
  unfold mergeCheck
  rw [if_neg (by simp), if_neg (by simp [hfl, hfr])]
  simp only [bind, Except.bind, hs, h3, pure, Except.pure]

/-- The column merged on is at the same place in the lists of matching columns. -/
theorem loc_on {L R : List (Option String)} {mL mR : List Nat} (h : Matching L R mL mR)
    (feature : MergeMode) {iL iR : Nat} (hm : mateIn mL mR iL = some iR) :
    (dfLocL feature mL iL, dfLocR feature mR iR) ∈ (matchL feature mL).zip (matchR feature mR) := by
  have hmem : iL ∈ mL := (h.mem_left iL).2 ⟨iR, hm⟩
  have hk := h.idxOf_lt hmem
  have hk' : mL.idxOf iL < mL.length := List.idxOf_lt_length_of_mem hmem
  have hmRk : mR[mL.idxOf iL] = iR := by
    unfold mateIn at hm
    rw [if_pos hmem, Option.some.injEq, List.getD_eq_getElem?_getD, List.getElem?_eq_getElem hk] at hm
    exact hm
  have hmLk : mL[mL.idxOf iL] = iL := List.getElem_idxOf hk'
  have hidx : mR.idxOf iR = mL.idxOf iL := by
    have := h.nodupR.idxOf_getElem (mL.idxOf iL) hk
    rw [hmRk] at this
    exact this
  have hl := h.len
  have hL? : mL[mL.idxOf iL]? = some iL := by rw [List.getElem?_eq_getElem hk', hmLk]
  have hR? : mR[mL.idxOf iL]? = some iR := by rw [List.getElem?_eq_getElem hk, hmRk]
  apply List.mem_of_getElem? (i := mL.idxOf iL)
  rw [List.getElem?_zip_eq_some]
  cases feature with
  | union => exact ⟨hL?, hR?⟩
  | left =>
    refine ⟨hL?, ?_⟩
    simp only [matchR, dfLocR, hidx]
    exact List.getElem?_range hk
  | intersection =>
    simp only [matchL, dfLocL, matchR, dfLocR, hidx]
    exact ⟨List.getElem?_range hk', List.getElem?_range hk⟩

theorem rowCell_pick_idxOf {nan : V} {r : List V} {m : List Nat} {i : Nat} (hb : ∀ j ∈ m, j < r.length)
    (hi : i ∈ m) : rowCell nan (pick r m) (m.idxOf i) = rowCell nan r i := by
  have hk : m.idxOf i < m.length := List.idxOf_lt_length_of_mem hi
  rw [rowCell_eq, rowCell_eq, getElem?_pick hb, List.getElem?_eq_getElem hk, List.getElem_idxOf hk]
  rfl

/-- The pairs of points of the merged frame, on a feature: the order of an outer join is that of
pandas. -/
def dfPtsOn (nan : V) (ord : List (Option Nat × Option Nat) → List (Option Nat × Option Nat))
    (point : MergeMode) (L R : Obj V) (a b : Nat) : List (Option Nat × Option Nat) :=
  if point = .union then ord (joinPtsOn nan point L R a b) else joinPtsOn nan point L R a b

theorem frontDf_on (nan : V) {ord : List (Option Nat × Option Nat) → List (Option Nat × Option Nat)}
    (hordp : ∀ l, (ord l).Perm l) {L R : Obj V} (hL : L.WF) (hR : R.WF)
    (hfl : L.fts.namesCreated) (hfr : R.fts.namesCreated)
    {f : OnFt} {s : String} (hs : L.resolveOn R f = .ok s) {iL iR : Nat}
    (hiL : L.fts.getNames[iL]? = some (some s)) (hiR : R.fts.getNames[iR]? = some (some s))
    (huniq : UniqueIn L iL ∨ UniqueIn R iR)
    (hnan : (∀ i, L.elem? i iL ≠ some nan) ∨ ∀ j, R.elem? j iR ≠ some nan)
    (point feature : MergeMode) (hord : feature = .intersection → NamesInOrder L.fts) :
    (¬ Conflict nan L R (valueMates nan L R iL iR) →
      ∃ r, L.mergeFrontDf nan ord R point feature (some f) = (r, .ok ()) ∧
        Merged nan L R (dfPtsOn nan ord point L R iL iR) (joinFts feature L R) r ∧
        r.pts.getNames = (dfPtsOn nan ord point L R iL iR).map (fun _ => none)) ∧
    (Conflict nan L R (valueMates nan L R iL iR) →
      (L.mergeFrontDf nan ord R point feature (some f)).2 = .error .InvalidArgumentValue) := by
  obtain ⟨tfl, htfl⟩ := Option.isSome_iff_exists.1 hfl
  obtain ⟨tfr, htfr⟩ := Option.isSome_iff_exists.1 hfr
  have hF := matching_of hL.fts hR.fts htfl htfr
  have hlL := hL.fts.length_getNames
  have hlR := hR.fts.length_getNames
  have hcheck := mergeCheck_on (nan := nan) hL hR hfl hfr hs hiL hiR huniq
  have hiL' : iL < L.fts.len := by rw [← hlL]; exact (List.getElem?_eq_some_iff.1 hiL).1
  have hiR' : iR < R.fts.len := by rw [← hlR]; exact (List.getElem?_eq_some_iff.1 hiR).1
  have hasc : feature = .intersection → idxOfNames L.fts (matchingNames L.fts R.fts) =
      (List.range L.fts.getNames.length).filter
        (fun i => decide (i ∈ idxOfNames L.fts (matchingNames L.fts R.fts))) := by
    intro hf
    exact ascending_of hF (pairwise_idxOfNames hL.fts htfl htfr (hord hf))
  obtain ⟨sl1, sl2, sl3, sl4⟩ := sliced_of hF feature
  have hfront : L.mergeFrontDf nan ord R point feature (some f) =
      L.dfFinish nan R point feature false (L.dfNumFeatures R feature)
        (L.dfFrame nan ord R point feature (some (iL, iR))) := by
    unfold mergeFrontDf
    rw [hcheck]
    rfl
  rw [hfront]
  unfold dfNumFeatures dfFrame
  dsimp only
  generalize hmL : idxOfNames L.fts (matchingNames L.fts R.fts) = mL at hF hasc sl1 sl2 sl3 sl4
  generalize hmR : idxOfNames R.fts (matchingNames L.fts R.fts) = mR at hF sl1 sl2 sl3 sl4
  rw [dfIdxL_eq, dfIdxR_eq, dfNumL_eq, dfNumR_eq]
  have hcL : ∀ q ∈ L.data, q.length = L.fts.getNames.length := by rw [hlL]; exact hL.cols
  have hcR : ∀ q ∈ R.data, q.length = R.fts.getNames.length := by rw [hlR]; exact hR.cols
  have hmate : mateIn mL mR iL = some iR := (hF.mate_iff iL iR).2 ⟨s, hiL, hiR⟩
  have hloc := loc_on hF feature hmate
  have hmemL : iL ∈ mL := (hF.mem_left iL).2 ⟨iR, hmate⟩
  have hmemR : iR ∈ mR := (hF.mem_right iR).2 ⟨iL, hmate⟩
  -- the keys
  have hkL : ∀ q ∈ L.data, rowCell nan (dfLeft feature mL q) (dfLocL feature mL iL) = rowCell nan q iL := by
    intro q hq
    cases feature with
    | left => rfl
    | union => rfl
    | intersection => exact rowCell_pick_idxOf (fun j hj => by rw [hcL q hq]; exact hF.ltL hj) hmemL
  have hkR : ∀ q ∈ R.data, rowCell nan (dfRight feature mR q) (dfLocR feature mR iR) = rowCell nan q iR := by
    intro q hq
    cases feature with
    | union => rfl
    | left => exact rowCell_pick_idxOf (fun j hj => by rw [hcR q hq]; exact hF.ltR hj) hmemR
    | intersection => exact rowCell_pick_idxOf (fun j hj => by rw [hcR q hq]; exact hF.ltR hj) hmemR
  have hkeysL : (L.data.map (dfLeft feature mL)).map (fun r => rowCell nan r (dfLocL feature mL iL))
      = L.data.map (fun r => rowCell nan r iL) := by
    rw [List.map_map]; exact List.map_congr_left hkL
  have hkeysR : (R.data.map (dfRight feature mR)).map (fun r => rowCell nan r (dfLocR feature mR iR))
      = R.data.map (fun r => rowCell nan r iR) := by
    rw [List.map_map]; exact List.map_congr_left hkR
  have heL : ∀ i, i < L.data.length → (L.data.map (fun r => rowCell nan r iL))[i]? = L.elem? i iL := by
    intro i hi
    rw [elem?_rowCell hL nan (by rw [← hL.rows]; exact hi) hiL', List.getElem?_map, getD_eq_some (d := []) hi]
    rfl
  have heR : ∀ i, i < R.data.length → (R.data.map (fun r => rowCell nan r iR))[i]? = R.elem? i iR := by
    intro i hi
    rw [elem?_rowCell hR nan (by rw [← hR.rows]; exact hi) hiR', List.getElem?_map, getD_eq_some (d := []) hi]
    rfl
  have hjoin : pdJoin point (L.data.map (fun r => rowCell nan r iL)) (R.data.map (fun r => rowCell nan r iR))
      = joinPtsOn nan point L R iL iR := by
    rw [pdJoin_eq point _ _ (valueMates nan L R iL iR)]
    · rw [List.length_map, List.length_map, hL.rows, hR.rows]; rfl
    · intro i k hk
      have hi : i < L.data.length := by
        have := (List.getElem?_eq_some_iff.1 hk).1
        simpa using this
      rw [heL i hi] at hk
      unfold pdFind valueMates
      rw [List.length_map, hR.rows]
      apply List.filter_congr
      intro j hj
      have hj : j < R.data.length := by rw [hR.rows]; simpa using hj
      rw [decide_eq_decide, heR j hj, hk]
      constructor
      · intro e
        refine ⟨e.symm, fun e2 => ?_⟩
        rcases hnan with h | h
        · exact h i (by rw [hk]; exact e2)
        · exact h j (by rw [e]; exact e2)
      · intro e; exact e.1.symm
  rw [hkeysL, hkeysR, hjoin]
  show (_ → ∃ r, L.dfFinish nan R point feature false _ ((dfPtsOn nan ord point L R iL iR).map _, _) = _ ∧ _) ∧
    (_ → (L.dfFinish nan R point feature false _ ((dfPtsOn nan ord point L R iL iR).map _, _)).2 = _)
  have hbl : ∀ i : Option Nat, i.bind ((L.data.map (dfLeft feature mL))[·]?)
      = (i.bind (L.data[·]?)).map (sliceL feature mL) :=
    bind_slice L _ _ (fun q hq => dfLeft_eq hF feature hasc (hcL q hq))
  have hbr : ∀ i : Option Nat, i.bind ((R.data.map (dfRight feature mR))[·]?)
      = (i.bind (R.data[·]?)).map (sliceR feature mR) :=
    bind_slice R _ _ (fun q _ => dfRight_eq feature mR q)
  simp only [hbl, hbr]
  have hln : ∀ (i : Option Nat) q, (i.bind (L.data[·]?)).map (sliceL feature mL) = some q →
      q.length = widthL feature L.fts.len mL := by
    intro i q hq
    obtain ⟨q', hq', rfl⟩ := Option.map_eq_some_iff.1 hq
    rw [← hlL]
    apply length_sliceL hF feature hasc
    cases i with
    | none => cases hq'
    | some i => exact hcL _ (List.mem_of_getElem? hq')
  have hrn : ∀ (i : Option Nat) q, (i.bind (R.data[·]?)).map (sliceR feature mR) = some q →
      q.length = widthR feature R.fts.len mR := by
    intro i q hq
    obtain ⟨q', hq', rfl⟩ := Option.map_eq_some_iff.1 hq
    rw [← hlR]
    apply length_sliceR hF feature
    cases i with
    | none => cases hq'
    | some i => exact hcR _ (List.mem_of_getElem? hq')
  have hltL : ∀ a ∈ matchL feature mL, a < widthL feature L.fts.len mL := by
    intro a ha
    cases feature with
    | left => exact hlL ▸ hF.ltL ha
    | union => exact hlL ▸ hF.ltL ha
    | intersection => simpa [matchL, widthL] using ha
  have hmlt : ∀ i, i < L.pts.len → ∀ j ∈ valueMates nan L R iL iR i, j < R.pts.len := by
    intro i _ j hj
    simpa using (List.mem_filter.1 hj).1
  have hP : ∀ i j, (some i, some j) ∈ dfPtsOn nan ord point L R iL iR ↔
      i < L.pts.len ∧ j ∈ valueMates nan L R iL iR i := by
    intro i j
    unfold dfPtsOn
    split
    · rw [(hordp _).mem_iff]; exact mem_joined_both
    · exact mem_joined_both
  -- the keys of a pair of rows are equal
  have hsame : ∀ p ∈ dfPtsOn nan ord point L R iL iR, ∀ a b,
      (p.1.bind (L.data[·]?)).map (sliceL feature mL) = some a →
      (p.2.bind (R.data[·]?)).map (sliceR feature mR) = some b →
      rowCell nan a (dfLocL feature mL iL) = rowCell nan b (dfLocR feature mR iR) := by
    rintro ⟨p1, p2⟩ hp a b ha hb
    cases p1 with
    | none => cases ha
    | some i =>
      cases p2 with
      | none => cases hb
      | some j =>
        have hv := ((hP i j).1 hp).2
        obtain ⟨a', ha', rfl⟩ := Option.map_eq_some_iff.1 ha
        obtain ⟨b', hb', rfl⟩ := Option.map_eq_some_iff.1 hb
        simp only [Option.bind_some] at ha' hb'
        have h1 := List.mem_of_getElem? ha'
        have h2 := List.mem_of_getElem? hb'
        rw [← dfLeft_eq hF feature hasc (hcL _ h1), ← dfRight_eq, hkL _ h1, hkR _ h2]
        have he : L.elem? i iL = R.elem? j iR := by
          unfold valueMates at hv
          simp only [List.mem_filter, decide_eq_true_eq] at hv
          exact hv.2.1
        unfold Obj.elem? at he
        rw [ha', hb'] at he
        simp only [Option.bind_some] at he
        rw [rowCell_eq, rowCell_eq, he]
  have hspec := dfFinish_spec hL hR htfl htfr nan point feature false
    (P := dfPtsOn nan ord point L R iL iR)
    (rowf := fun p => pdRowOn nan (widthL feature L.fts.len mL) (widthR feature R.fts.len mR)
      (dfLocL feature mL iL) (dfLocR feature mR iR)
      ((p.1.bind (L.data[·]?)).map (sliceL feature mL)) ((p.2.bind (R.data[·]?)).map (sliceR feature mR)))
    (ps := dfOnPairs (widthL feature L.fts.len mL) (dfLocL feature mL iL) (dfLocR feature mR iR)
      ((matchL feature mL).zip (matchR feature mR)))
    (n := widthL feature L.fts.len mL)
    (nF := widthL feature L.fts.len mL + widthR feature R.fts.len mR - (matchR feature mR).length)
    (C := Conflict nan L R (valueMates nan L R iL iR))
    (by
      intro p hp
      rw [dfOnPairs_eq] at hp
      obtain ⟨q, hq, rfl⟩ := List.mem_map.1 hp
      obtain ⟨q', hq', rfl⟩ := List.mem_map.1 hq
      exact ⟨hltL _ (List.of_mem_zip (List.mem_filter.1 hq').1).1, by dsimp only; omega⟩)
    (by
      rw [dfOnPairs_eq, List.map_map]
      exact relOn_nodup sl1 sl2 _ _)
    (by
      intro p hp
      rw [row_out_on sl1 sl2 sl3 hltL hloc _ _ (hln p.1) (hrn p.2) (hsame p hp)]
      have := outRow_slices hF feature nan hasc (p.1.bind (L.data[·]?)) (p.2.bind (R.data[·]?))
        (by
          intro q hq
          cases h : p.1 with
          | none => rw [h] at hq; cases hq
          | some i => rw [h] at hq; exact hcL q (List.mem_of_getElem? hq))
        (by
          intro q hq
          cases h : p.2 with
          | none => rw [h] at hq; cases hq
          | some i => rw [h] at hq; exact hcR q (List.mem_of_getElem? hq))
      rw [hlL, hlR] at this
      exact this)
    (by
      rw [← width_join hL hR feature hF hasc]
      have : (matchR feature mR).length ≤ widthR feature R.fts.len mR := by
        cases feature with
        | union =>
          rw [← hlR]
          have hsub : mR ⊆ List.range R.fts.getNames.length :=
            fun j hj => List.mem_range.2 (hF.ltR hj)
          simpa [matchR, widthR] using (hF.nodupR.subperm hsub).length_le
        | left => simp [matchR, widthR]
        | intersection => simp [matchR, widthR]
      omega)
    (by
      rw [← pairs_conflict hL hR hF feature hasc hmlt (P := dfPtsOn nan ord point L R iL iR) hP,
        List.forall_mem_map]
      exact forall₂_congr fun p hp => agree_pdRowOn sl1 sl2 sl3 (fun q hq => hltL _ (List.of_mem_zip hq).1)
        hloc _ _ (hln p.1) (hsame p hp))
    (fun h => by cases h)
  constructor
  · intro hc
    obtain ⟨r, h1, h2, _, h3⟩ := hspec.1 hc
    exact ⟨r, h1, h2, h3 rfl⟩
  · exact hspec.2

end Obj
end

/-! ## The order of an outer join on point names -/

theorem PdKey.le_total' (a b : PdKey) : a.le b = true ∨ b.le a = true := by
  cases a <;> cases b <;> simp only [PdKey.le, decide_eq_true_eq, true_or, or_true]
  · exact Nat.le_total _ _
  · exact String.le_total _ _

theorem PdKey.le_trans' {a b c : PdKey} (h1 : a.le b = true) (h2 : b.le c = true) : a.le c = true := by
  cases a <;> cases b <;> cases c <;> simp only [PdKey.le, decide_eq_true_eq, Bool.false_eq_true] at h1 h2 ⊢
  · exact Nat.le_trans h1 h2
  · exact String.le_trans h1 h2

instance (kl kr : List PdKey) : Std.Total (pdBefore kl kr) := ⟨by
  intro p q
  unfold pdBefore
  cases pdPairKey kl kr p <;> cases pdPairKey kl kr q <;> simp only [pdLeOpt, true_or, or_true]
  exact PdKey.le_total' _ _⟩

instance (kl kr : List PdKey) : IsTrans _ (pdBefore kl kr) := ⟨by
  intro p q r
  unfold pdBefore
  cases pdPairKey kl kr p <;> cases pdPairKey kl kr q <;> cases pdPairKey kl kr r <;>
    simp only [pdLeOpt, Bool.false_eq_true, false_implies, implies_true]
  exact PdKey.le_trans'⟩

/-- The names of the points of an outer join do not have to be sorted: one object has no points, both
have the same names, the names are in alphabetical order already, or some point has no name while
another one has (pandas does not sort then). -/
def NoReorder (l r : List (Option String)) (joined : List (Option String)) : Prop :=
  l = [] ∨ r = [] ∨ (l = r ∧ none ∉ l) ∨
    (∃ ns : List String, joined = ns.map some ∧ ns.Pairwise (· ≤ ·)) ∨
    (none ∈ l ++ r ∧ ∃ s, some s ∈ l ++ r)

theorem pdIndex_named {l : List (Option String)} (h : none ∉ l) (a b : Nat) : pdIndex l a = pdIndex l b := by
  unfold pdIndex
  apply List.map_congr_left
  rintro ⟨n, i⟩ hp
  have : n ∈ l := by
    have := List.mem_zipIdx_iff_getElem?.1 hp
    exact List.mem_of_getElem? this
  cases n with
  | none => exact absurd this h
  | some s => rfl

theorem mem_pdIndex_name {l : List (Option String)} {a : Nat} {s : String} (h : some s ∈ l) :
    ∃ k ∈ pdIndex l a, k.isName = true := by
  obtain ⟨i, hi⟩ := List.mem_iff_getElem?.1 h
  refine ⟨.name s, List.mem_of_getElem? (i := i) ?_, rfl⟩
  rw [getElem?_pdIndex, hi]
  rfl

theorem mem_pdIndex_idx {l : List (Option String)} {a : Nat} (h : none ∈ l) :
    ∃ k ∈ pdIndex l a, k.isName = false := by
  obtain ⟨i, hi⟩ := List.mem_iff_getElem?.1 h
  refine ⟨.idx (i + a), List.mem_of_getElem? (i := i) ?_, rfl⟩
  rw [getElem?_pdIndex, hi]
  rfl

section
variable {V : Type} [DecidableEq V]
namespace Obj

theorem pairKey_named {lN rN : List (Option String)} {n : Nat} {p : Option Nat × Option Nat} {s : String}
    (h : nameOfPair lN rN p = some s) : pdPairKey (pdIndex lN 0) (pdIndex rN n) p = some (.name s) := by
  obtain ⟨p1, p2⟩ := p
  cases p1 with
  | some i =>
    have h : (lN[i]?).join = some s := h
    simp only [pdPairKey]
    rw [getElem?_pdIndex]
    cases h1 : lN[i]? with
    | none => rw [h1] at h; cases h
    | some x => rw [h1] at h; cases h; rfl
  | none =>
    cases p2 with
    | none => cases h
    | some j =>
      have h : (rN[j]?).join = some s := h
      simp only [pdPairKey, Option.bind_some]
      rw [getElem?_pdIndex]
      cases h1 : rN[j]? with
      | none => rw [h1] at h; cases h
      | some x => rw [h1] at h; cases h; rfl

theorem dfPts_eq {L R : Obj V} (hL : L.WF) (hR : R.WF) (point : MergeMode)
    (h : point = .union → NoReorder L.pts.getNames R.pts.getNames
      ((joinPts point L R).map (nameOfPair L.pts.getNames R.pts.getNames))) :
    dfPts point L R = joinPts point L R := by
  unfold dfPts pdIndexJoin
  rw [pdJoin_names hL hR]
  split
  · next hc =>
    obtain ⟨hu, hsort⟩ := hc
    unfold pdSorts at hsort
    rw [Bool.and_eq_true, decide_eq_true_eq] at hsort
    rcases h hu with h0 | h0 | ⟨h0, h1⟩ | ⟨ns, h0, h1⟩ | ⟨h0, s, h1⟩
    · exact absurd (by rw [h0]; rfl) hsort.1.2.1
    · exact absurd (by rw [h0]; rfl) hsort.1.2.2
    · exact absurd (by rw [← h0]; exact pdIndex_named h1 _ _) hsort.1.1
    · apply List.Pairwise.insertionSort_eq
      have hp : ((joinPts point L R).map (nameOfPair L.pts.getNames R.pts.getNames)).Pairwise
          (fun a b => ∀ s t, a = some s → b = some t → s ≤ t) := by
        rw [h0, List.pairwise_map]
        exact h1.imp (fun hab s t hs ht => by cases hs; cases ht; exact hab)
      have hall : ∀ p ∈ joinPts point L R, ∃ s, nameOfPair L.pts.getNames R.pts.getNames p = some s := by
        intro p hp
        have : nameOfPair L.pts.getNames R.pts.getNames p ∈ ns.map some := by
          rw [← h0]; exact List.mem_map_of_mem hp
        obtain ⟨s, _, hs⟩ := List.mem_map.1 this
        exact ⟨s, hs.symm⟩
      rw [List.pairwise_map] at hp
      refine List.Pairwise.imp_of_mem ?_ hp
      intro p q hp hq hpq
      obtain ⟨s, hs⟩ := hall p hp
      obtain ⟨t, ht⟩ := hall q hq
      unfold pdBefore
      rw [pairKey_named hs, pairKey_named ht]
      simpa [pdLeOpt, PdKey.le] using hpq s t hs ht
    · exfalso
      have hn : ∃ k ∈ pdIndex L.pts.getNames 0 ++ pdIndex R.pts.getNames L.pts.len, k.isName = true := by
        rcases List.mem_append.1 h1 with h1 | h1
        · obtain ⟨k, hk, hk'⟩ := mem_pdIndex_name (a := 0) h1
          exact ⟨k, List.mem_append_left _ hk, hk'⟩
        · obtain ⟨k, hk, hk'⟩ := mem_pdIndex_name (a := L.pts.len) h1
          exact ⟨k, List.mem_append_right _ hk, hk'⟩
      have hi : ∃ k ∈ pdIndex L.pts.getNames 0 ++ pdIndex R.pts.getNames L.pts.len, k.isName = false := by
        rcases List.mem_append.1 h0 with h1 | h1
        · obtain ⟨k, hk, hk'⟩ := mem_pdIndex_idx (a := 0) h1
          exact ⟨k, List.mem_append_left _ hk, hk'⟩
        · obtain ⟨k, hk, hk'⟩ := mem_pdIndex_idx (a := L.pts.len) h1
          exact ⟨k, List.mem_append_right _ hk, hk'⟩
      obtain ⟨a, ha, ha'⟩ := hn
      obtain ⟨b, hb, hb'⟩ := hi
      rcases Bool.or_eq_true _ _ ▸ hsort.2 with hh | hh
      · have := List.all_eq_true.1 hh b hb
        rw [hb'] at this
        cases this
      · have := List.all_eq_true.1 hh a ha
        rw [ha'] at this
        cases this
  · rfl

theorem mergeDf_none (nan : V) (ord : List (Option Nat × Option Nat) → List (Option Nat × Option Nat))
    (le : V → V → Bool) (L R : Obj V) (point feature : MergeMode) :
    L.mergeDf nan ord le R point feature none = L.mergeFrontDf nan ord R point feature none := by
  unfold mergeDf
  dsimp only
  split <;> simp_all

/-- C94. The merge of two DataFrame objects on point names is the same documented join as for List (C19), also
for objects without points, if pandas has nothing to sort: for `point='union'` the points must be in
alphabetical order, or the names equal (`NoReorder`). -/
theorem C94_df_join_partial (nan : V)
    (ord : List (Option Nat × Option Nat) → List (Option Nat × Option Nat)) (le : V → V → Bool)
    {L R : Obj V} (hL : L.WF) (hR : R.WF)
    (hpl : L.pts.namesCreated) (hpr : R.pts.namesCreated) (hfl : L.fts.namesCreated)
    (hfr : R.fts.namesCreated) (point feature : MergeMode)
    (hord : feature = .intersection → NamesInOrder L.fts)
    (hsort : point = .union → NoReorder L.pts.getNames R.pts.getNames
      ((joinPts point L R).map (nameOfPair L.pts.getNames R.pts.getNames))) :
    (¬ Conflict nan L R (nameMates L.pts.getNames R.pts.getNames) →
      ∃ r, L.mergeDf nan ord le R point feature none = (r, .ok ()) ∧
        Merged nan L R (joinPts point L R) (joinFts feature L R) r ∧
        r.pts.getNames = (joinPts point L R).map (nameOfPair L.pts.getNames R.pts.getNames)) ∧
    (Conflict nan L R (nameMates L.pts.getNames R.pts.getNames) →
      (L.mergeDf nan ord le R point feature none).2 = .error .InvalidArgumentValue) := by
  rw [mergeDf_none]
  have h := frontDf_names nan ord hL hR hpl hpr hfl hfr point feature hord
  rw [dfPts_eq hL hR point hsort] at h
  exact h

/-- C94. In every case a DataFrame merge with `point='union'` has the elements of the points of the join in
some order `P`, and the names of the join in the order of the documentation; if all points have names
and the objects do not have the same names, `P` is in alphabetical order: then the names are those of other
points whenever the documented order is not alphabetical. -/
theorem C94_df_union_rows (nan : V)
    (ord : List (Option Nat × Option Nat) → List (Option Nat × Option Nat)) (le : V → V → Bool)
    {L R : Obj V} (hL : L.WF) (hR : R.WF)
    (hpl : L.pts.namesCreated) (hpr : R.pts.namesCreated) (hfl : L.fts.namesCreated)
    (hfr : R.fts.namesCreated) (feature : MergeMode)
    (hord : feature = .intersection → NamesInOrder L.fts)
    (hc : ¬ Conflict nan L R (nameMates L.pts.getNames R.pts.getNames)) :
    ∃ r P, L.mergeDf nan ord le R .union feature none = (r, .ok ()) ∧
      P.Perm (joinPts .union L R) ∧ Merged nan L R P (joinFts feature L R) r ∧
      r.pts.getNames = (joinPts .union L R).map (nameOfPair L.pts.getNames R.pts.getNames) ∧
      (none ∉ L.pts.getNames → none ∉ R.pts.getNames → L.pts.getNames ≠ R.pts.getNames →
        L.pts.getNames ≠ [] → R.pts.getNames ≠ [] →
        P.Pairwise (fun p q => ∀ s t, nameOfPair L.pts.getNames R.pts.getNames p = some s →
          nameOfPair L.pts.getNames R.pts.getNames q = some t → s ≤ t)) := by
  rw [mergeDf_none]
  obtain ⟨r, h1, h2, h3⟩ := (frontDf_names nan ord hL hR hpl hpr hfl hfr .union feature hord).1 hc
  refine ⟨r, dfPts .union L R, h1, dfPts_perm hL hR .union, h2, h3, ?_⟩
  intro hnl hnr hne hl0 hr0
  have hkey : ∀ l : List (Option String), none ∉ l → ∀ a, (pdIndex l a).all PdKey.isName = true := by
    intro l hl a
    rw [List.all_eq_true]
    intro k hk
    obtain ⟨p, hp, rfl⟩ := List.mem_map.1 hk
    obtain ⟨n, i⟩ := p
    have : n ∈ l := List.mem_of_getElem? (List.mem_zipIdx_iff_getElem?.1 hp)
    cases n with
    | none => exact absurd this hl
    | some s => rfl
  have hsorts : pdSorts (pdIndex L.pts.getNames 0) (pdIndex R.pts.getNames L.pts.len) = true := by
    unfold pdSorts
    rw [Bool.and_eq_true, decide_eq_true_eq, Bool.or_eq_true, List.all_append, hkey _ hnl, hkey _ hnr]
    refine ⟨⟨?_, ?_, ?_⟩, Or.inl rfl⟩
    · intro e
      apply hne
      apply List.ext_getElem?
      intro i
      have he : (pdIndex L.pts.getNames 0)[i]? = (pdIndex R.pts.getNames L.pts.len)[i]? := by rw [e]
      rw [getElem?_pdIndex, getElem?_pdIndex] at he
      cases h1 : L.pts.getNames[i]? with
      | none =>
        cases h2 : R.pts.getNames[i]? with
        | none => rfl
        | some y => rw [h1, h2] at he; cases he
      | some x =>
        cases h2 : R.pts.getNames[i]? with
        | none => rw [h1, h2] at he; cases he
        | some y =>
          rw [h1, h2] at he
          cases x with
          | none => exact absurd (List.mem_of_getElem? h1) hnl
          | some s =>
            cases y with
            | none => exact absurd (List.mem_of_getElem? h2) hnr
            | some t =>
              simp only [Option.map_some, pdKey, Option.some.injEq, PdKey.name.injEq] at he
              rw [he]
    · intro e
      have := congrArg List.length e
      rw [length_pdIndex] at this
      exact hl0 (List.eq_nil_of_length_eq_zero this)
    · intro e
      have := congrArg List.length e
      rw [length_pdIndex] at this
      exact hr0 (List.eq_nil_of_length_eq_zero this)
  unfold dfPts pdIndexJoin
  rw [if_pos ⟨rfl, hsorts⟩]
  refine List.Pairwise.imp ?_ (List.pairwise_insertionSort (pdBefore _ _) _)
  intro p q hpq s t hs ht
  unfold pdBefore at hpq
  rw [pairKey_named hs, pairKey_named ht] at hpq
  simpa [pdLeOpt, PdKey.le] using hpq

/-- C94. The merge of two DataFrame objects on a feature, for `point` 'left' or 'intersection', is the
documented join without the conditions needed for List (C19), if the feature merged on has no missing
value in one of the objects. -/
theorem C94_df_on_partial (nan : V) {ord : List (Option Nat × Option Nat) → List (Option Nat × Option Nat)}
    (hordp : ∀ l, (ord l).Perm l) (le : V → V → Bool) {L R : Obj V} (hL : L.WF) (hR : R.WF)
    (hfl : L.fts.namesCreated) (hfr : R.fts.namesCreated)
    {f : OnFt} {s : String} (hs : L.resolveOn R f = .ok s) {iL iR : Nat}
    (hiL : L.fts.getNames[iL]? = some (some s)) (hiR : R.fts.getNames[iR]? = some (some s))
    (huniq : UniqueIn L iL ∨ UniqueIn R iR)
    (hnan : (∀ i, L.elem? i iL ≠ some nan) ∨ ∀ j, R.elem? j iR ≠ some nan)
    (point feature : MergeMode) (hpt : point ≠ .union) (hord : feature = .intersection → NamesInOrder L.fts) :
    (¬ Conflict nan L R (valueMates nan L R iL iR) →
      ∃ r, L.mergeDf nan ord le R point feature (some f) = (r, .ok ()) ∧
        Merged nan L R (joinPtsOn nan point L R iL iR) (joinFts feature L R) r ∧
        r.pts.getNames = (joinPtsOn nan point L R iL iR).map (fun _ => none)) ∧
    (Conflict nan L R (valueMates nan L R iL iR) →
      (L.mergeDf nan ord le R point feature (some f)).2 = .error .InvalidArgumentValue) := by
  have h := frontDf_on nan hordp hL hR hfl hfr hs hiL hiR huniq hnan point feature hord
  have he : L.mergeDf nan ord le R point feature (some f) = L.mergeFrontDf nan ord R point feature (some f) := by
    unfold mergeDf
    dsimp only
    split
    · rw [if_neg (by simp [hpt])]
    · rfl
  rw [he]
  unfold dfPtsOn at h
  rw [if_neg hpt] at h
  exact h

/-- C94. `merge(point='union', onFeature=name)` of two DataFrame objects: whatever order pandas gives the rows
of the outer join, the result is the join with the points of both objects, sorted (stably) by the
values of the feature merged on. -/
theorem C94_df_on_union_partial (nan : V)
    {ord : List (Option Nat × Option Nat) → List (Option Nat × Option Nat)}
    (hordp : ∀ l, (ord l).Perm l) {le : V → V → Bool} (hle : TotalOrd le) {L R : Obj V} (hL : L.WF)
    (hR : R.WF) (hfl : L.fts.namesCreated) (hfr : R.fts.namesCreated)
    {s : String} (hs0 : s ≠ "") {iL iR : Nat}
    (hiL : L.fts.getNames[iL]? = some (some s)) (hiR : R.fts.getNames[iR]? = some (some s))
    (huniq : UniqueIn L iL ∨ UniqueIn R iR)
    (hnan : (∀ i, L.elem? i iL ≠ some nan) ∨ ∀ j, R.elem? j iR ≠ some nan)
    (feature : MergeMode) (hord : feature = .intersection → NamesInOrder L.fts) :
    (¬ Conflict nan L R (valueMates nan L R iL iR) →
      ∃ r0 r P l j, L.mergeDf nan ord le R .union feature (some (.name s)) = (r, .ok ()) ∧
        P.Perm (joinPtsOn nan .union L R iL iR) ∧
        Merged nan L R P (joinFts feature L R) r0 ∧
        (joinFts feature L R)[j]? = some (some iL, some iR) ∧
        Rearranged r0 r .point l ∧ l.Pairwise (LexBefore le false [r0.vector .feature j])) ∧
    (Conflict nan L R (valueMates nan L R iL iR) →
      (L.mergeDf nan ord le R .union feature (some (.name s))).2 = .error .InvalidArgumentValue) := by
  have h := frontDf_on nan hordp hL hR hfl hfr (f := .name s) rfl hiL hiR huniq hnan .union feature hord
  have ht : onTruthy (some (OnFt.name s)) = true := by simp [onTruthy, hs0]
  constructor
  · intro hc
    obtain ⟨r0, h1, h2, _⟩ := h.1 hc
    have hmem := mem_joinFts_on hL hR hiL hiR feature
    obtain ⟨j, hj⟩ := List.mem_iff_getElem?.1 hmem
    have hname : r0.fts.getNames[j]? = some (some s) := by
      rw [h2.ftNames, List.getElem?_map, hj]
      simp [nameOfPair, hiL]
    have hidx := (h2.wf.fts.getName_iff s j).1 hname
    obtain ⟨r, l, h3, h4, h5⟩ := C10_sort_lexicographic_stable hle false h2.wf .point [.str s] [j]
      (by simp only [List.map_cons, List.map_nil, List.cons.injEq, and_true]; exact hidx)
    refine ⟨r0, r, _, l, j, ?_, hordp _, h2, hj, h4, by simpa [Ax.off] using h5⟩
    unfold mergeDf
    rw [h1]
    dsimp only
    rw [if_pos ⟨rfl, ht⟩]
    exact h3
  · intro hc
    have h1 := h.2 hc
    unfold mergeDf
    dsimp only
    rw [h1]
    exact h1

end Obj
end

/-! ## Concrete cases and counterexamples -/

/-- A case of `C94_df_join_partial`: the names are in alphabetical order. -/
example : (exL.mergeDf .nan id mvLe exR .union .union none).2 = .ok () ∧
    (exL.mergeDf .nan id mvLe exR .union .union none).1.data =
      [[.s "a", .n 1, .nan, .nan], [.s "b", .n 2, .s "Y", .n 5], [.nan, .nan, .s "Z", .n 6]] ∧
    (exL.mergeDf .nan id mvLe exR .union .union none).1.pts.getNames = [some "p1", some "p2", some "p3"] := by
  decide +kernel

example : NoReorder exL.pts.getNames exR.pts.getNames
    ((joinPts .union exL exR).map (nameOfPair exL.pts.getNames exR.pts.getNames)) :=
  Or.inr (Or.inr (Or.inr (Or.inl ⟨["p1", "p2", "p3"], by decide, by decide⟩)))

/-- A case of `C94_df_on_partial`. -/
example : (exOnL.mergeDf .nan id mvLe exOnR .left .union (some (.name "id"))).2 = .ok () ∧
    (exOnL.mergeDf .nan id mvLe exOnR .left .union (some (.name "id"))).1.data =
      [[.n 1, .s "x", .nan], [.n 2, .s "y", .n 7], [.n 2, .s "y", .n 8]] := by decide +kernel

/-- A case of `C94_df_on_union_partial`, before the points are sorted. -/
example : (exOnL.mergeFrontDf .nan List.reverse exOnR .union .union (some (.name "id"))).2 = .ok () ∧
    (exOnL.mergeFrontDf .nan List.reverse exOnR .union .union (some (.name "id"))).1.data =
      [[.n 3, .nan, .n 9], [.n 2, .s "y", .n 8], [.n 2, .s "y", .n 7], [.n 1, .s "x", .nan]] := by
  decide +kernel

def dfSortL : Obj MV := ⟨[[.n 1]], axN ["b"], axN ["f"]⟩
def dfSortR : Obj MV := ⟨[[.n 2]], axN ["a"], axN ["f"]⟩

/-- C94 is violated by the code: the points of a union of DataFrame objects get each other's names when the
documented order is not alphabetical: the point 'b' has the value of 'a'. -/
theorem C94_df_order_violated :
    (dfSortL.merge mvVals mvLe dfSortR .union .union none).1.data = [[.n 1], [.n 2]] ∧
    (dfSortL.mergeDf .nan id mvLe dfSortR .union .union none).2 = .ok () ∧
    (dfSortL.mergeDf .nan id mvLe dfSortR .union .union none).1.pts.getNames = [some "b", some "a"] ∧
    (dfSortL.mergeDf .nan id mvLe dfSortR .union .union none).1.data = [[.n 2], [.n 1]] := by
  decide +kernel

def dfNanL : Obj MV := ⟨[[.nan, .n 1]], ⟨1, none⟩, axN ["id", "x"]⟩
def dfNanR : Obj MV := ⟨[[.nan, .n 2]], ⟨1, none⟩, axN ["id", "y"]⟩

/-- C94 is violated by the code: in DataFrame objects a missing value of the feature merged on is equal to
another one. -/
theorem C94_df_missing_violated :
    (dfNanL.merge mvVals mvLe dfNanR .intersection .union (some (.name "id"))).1.data = [] ∧
    (dfNanL.mergeDf .nan id mvLe dfNanR .intersection .union (some (.name "id"))).1.data
      = [[.nan, .n 1, .n 2]] := by
  decide +kernel

/-- C94, C19 are violated by the code: a merge of DataFrame objects which is refused leaves the frame of
pandas in the object, with columns of both objects. -/
theorem C94_df_refused_violated :
    (exL.mergeDf .nan id mvLe confR .left .union none).2 = .error .InvalidArgumentValue ∧
    (exL.mergeDf .nan id mvLe confR .left .union none).1.data ≠ exL.data ∧
    ¬ (exL.mergeDf .nan id mvLe confR .left .union none).1.WF := by
  refine ⟨by decide +kernel, by decide +kernel, fun h => ?_⟩
  have h1 := h.cols
  revert h1
  decide +kernel

end Nimble
