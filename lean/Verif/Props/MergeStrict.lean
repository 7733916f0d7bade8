import Verif.Props.MergeCases

/-!
# C19: `merge` with one axis 'strict'
-/

namespace Nimble
namespace Obj
variable {V : Type} [DecidableEq V]

/-! ## Points in the same order -/

/-- Every point with the one at the same index. -/
def samePts (n : Nat) : List (Option Nat × Option Nat) :=
  (List.range n).map (fun i => (some i, some i))

theorem nameMates_self {N : List (Option String)} (hn : N.reduceOption.Nodup)
    (ha : ∀ x ∈ N, x ≠ none) {i : Nat} (hi : i < N.length) : nameMates N N i = [i] := by
  have hne : N[i] ≠ none := ha _ (List.getElem_mem hi)
  obtain ⟨s, hs⟩ := Option.ne_none_iff_exists'.1 hne
  have hs' : N[i]? = some (some s) := by rw [List.getElem?_eq_getElem hi, hs]
  unfold nameMates
  have : (List.range N.length).filter (fun j => decide ((N[i]?).join ≠ none ∧ N[i]? = N[j]?))
      = (List.range N.length).filter (fun j => j == i) := by
    apply List.filter_congr
    intro j hj
    rw [hs']
    by_cases e : j = i
    · subst e; simp [hs']
    · have : ¬ (some (some s) = N[j]?) := by
        intro h
        exact e (nodup_of_reduceOption hn h.symm hs')
      simp [this, e]
  rw [this, List.filter_beq, List.count_eq_one_of_mem List.nodup_range (by simpa using hi)]
  rfl

theorem joined_same {N : List (Option String)} (hn : N.reduceOption.Nodup)
    (ha : ∀ x ∈ N, x ≠ none) {n : Nat} (hl : N.length = n) :
    joined .intersection n n (nameMates N N) = samePts n := by
  unfold joined samePts
  simp only [reduceCtorEq, if_false, List.append_nil]
  rw [← List.flatMap_pure_eq_map]
  apply List.flatMap_congr
  intro i hi
  rw [nameMates_self hn ha (by rw [hl]; simpa using hi)]
  simp

theorem strictNames_spec (l : List (Option String)) :
    (strictNames l).length = l.length ∧ ∀ x ∈ strictNames l, x ≠ none := by
  unfold strictNames
  refine ⟨by simp, ?_⟩
  intro x hx
  obtain ⟨p, _, rfl⟩ := List.mem_map.1 hx
  simp

theorem strictNames_default (n : Nat) :
    (strictNames (List.replicate n none)).reduceOption.Nodup := by
  have he : strictNames (List.replicate n none)
      = (List.range n).map (fun i => some ("_STRICT" ++ toString i)) := by
    unfold strictNames
    apply List.ext_getElem (by simp)
    intro i h1 h2
    simp
  rw [he]
  unfold List.reduceOption
  rw [List.filterMap_map]
  have : (id ∘ fun i : Nat => some ("_STRICT" ++ toString i)) = fun i => some ("_STRICT" ++ toString i) := rfl
  rw [this, List.filterMap_eq_map']
  apply List.nodup_range.map
  intro a b h
  apply toString_nat_inj
  have h := congrArg String.toList h
  simp only [String.toList_append] at h
  exact String.toList_inj.1 (List.append_cancel_left h)

theorem mergeNameLists_default : ∀ n : Nat,
    mergeNameLists (List.replicate n none) (List.replicate n none) = List.replicate n none := by
  intro n
  induction n with
  | zero => rfl
  | succ n ih => simp [List.replicate_succ, mergeNameLists, ih]

/-- The strict merge on points once both objects have the same names there. -/
theorem front_same (m : MergeVals V) {L R : Obj V} (hL : L.WF) (hR : R.WF)
    (hfl : L.fts.namesCreated) (hfr : R.fts.namesCreated) (hn : 0 < L.pts.len)
    {N : List (Option String)} (hN : N.reduceOption.Nodup) (hall : ∀ x ∈ N, x ≠ none)
    {l' r' : AxisSt} (hl1 : l'.Ok) (hr1 : r'.Ok) (hl2 : l'.len = L.pts.len) (hr2 : r'.len = R.pts.len)
    (hl3 : l'.getNames = N) (hr3 : r'.getNames = N) (hl4 : l'.namesCreated) (hr4 : r'.namesCreated)
    (feature : MergeMode) (hord : feature = .intersection → NamesInOrder L.fts) :
    L.pts.len = R.pts.len ∧
    (¬ Conflict m.nan L R (fun i => [i]) →
      ∃ r, mergeFront m (L.setAxis .point l') (R.setAxis .point r') .intersection feature none = (r, .ok ()) ∧
        Merged m.nan L R (samePts L.pts.len) (joinFts feature L R) r ∧ r.pts.getNames = N) ∧
    (Conflict m.nan L R (fun i => [i]) →
      (mergeFront m (L.setAxis .point l') (R.setAxis .point r') .intersection feature none).2
        = .error .InvalidArgumentValue) := by
  have hNl : N.length = L.pts.len := by rw [← hl3, hl1.length_getNames, hl2]
  have hNr : N.length = R.pts.len := by rw [← hr3, hr1.length_getNames, hr2]
  have hWL : (L.setAxis .point l').WF := ⟨hL.rows.trans hl2.symm, hL.cols, hl1, hL.fts⟩
  have hWR : (R.setAxis .point r').WF := ⟨hR.rows.trans hr2.symm, hR.cols, hr1, hR.fts⟩
  have h := front_names m hWL hWR hl4 hr4 hfl hfr (by show 0 < l'.len; omega)
    (by show 0 < r'.len; omega) .intersection feature hord
  have hP : joinPts .intersection (L.setAxis .point l') (R.setAxis .point r') = samePts L.pts.len := by
    show joined .intersection l'.len r'.len (nameMates l'.getNames r'.getNames) = _
    rw [hl3, hr3, hl2, hr2, ← hNr, hNl]
    exact joined_same hN hall hNl
  have hmates : nameMates (L.setAxis .point l').pts.getNames (R.setAxis .point r').pts.getNames = nameMates N N := by
    show nameMates l'.getNames r'.getNames = _
    rw [hl3, hr3]
  have hC : Conflict m.nan (L.setAxis .point l') (R.setAxis .point r')
      (nameMates (L.setAxis .point l').pts.getNames (R.setAxis .point r').pts.getNames) ↔
      Conflict m.nan L R (fun i => [i]) := by
    rw [hmates]
    constructor
    · rintro ⟨i, j, a, b, x, y, hi, hj, rest⟩
      have hi' : i < L.pts.len := by rw [← hl2]; exact hi
      rw [nameMates_self hN hall (by omega)] at hj
      exact ⟨i, j, a, b, x, y, hi', hj, rest⟩
    · rintro ⟨i, j, a, b, x, y, hi, hj, rest⟩
      refine ⟨i, j, a, b, x, y, by show i < l'.len; omega, ?_, rest⟩
      rw [nameMates_self hN hall (by omega)]
      exact hj
  rw [hP, hC] at h
  refine ⟨by omega, ?_, h.2⟩
  intro hc
  obtain ⟨r, h1, h2, h3⟩ := h.1 hc
  refine ⟨r, h1, ⟨h2.wf, h2.nP, h2.nF, h2.elem, h2.ftNames⟩, ?_⟩
  rw [h3]
  show (samePts L.pts.len).map (nameOfPair l'.getNames r'.getNames) = N
  rw [hl3, hr3]
  unfold samePts
  rw [List.map_map, ← hNl]
  apply List.ext_getElem (by simp)
  intro i h1 h2
  simp [nameOfPair, h2]

/-- C19. `merge(point='strict', force=True)` of two objects without point names and with the same
number of points: each point is joined with the one at the same index; the points have no names
afterwards. -/
theorem C19_strict_points_unnamed (m : MergeVals V) (le : V → V → Bool) {L R : Obj V} (hL : L.WF)
    (hR : R.WF) (hpl : L.pts.tbl = none) (hpr : R.pts.tbl = none) (hfl : L.fts.namesCreated)
    (hfr : R.fts.namesCreated) (hn : 0 < L.pts.len) (hlen : L.pts.len = R.pts.len)
    (feature : MergeMode) (hord : feature = .intersection → NamesInOrder L.fts) :
    (¬ Conflict m.nan L R (fun i => [i]) →
      ∃ r, L.mergeStrict m le R .point feature none true = (r, .ok ()) ∧
        Merged m.nan L R (samePts L.pts.len) (joinFts feature L R) r ∧
        r.pts.getNames = List.replicate L.pts.len none) ∧
    (Conflict m.nan L R (fun i => [i]) →
      (L.mergeStrict m le R .point feature none true).2 = .error .InvalidArgumentValue) := by
  have hnl : L.pts.getNames = List.replicate L.pts.len none := by simp [AxisSt.getNames, hpl]
  have hnr : R.pts.getNames = List.replicate L.pts.len none := by simp [AxisSt.getNames, hpr, hlen]
  obtain ⟨hs1, hs2⟩ := strictNames_spec (List.replicate L.pts.len none)
  have hs3 := strictNames_default L.pts.len
  rw [List.length_replicate] at hs1
  generalize hN : strictNames (List.replicate L.pts.len none) = N at hs1 hs2 hs3
  have hsetL : L.pts.setNames (.list N) = .ok ⟨L.pts.len, some ⟨namedPairs 0 N, N⟩⟩ := by
    have := setNames_list_eq L.pts N
    rwa [if_pos ⟨hs1, hs3⟩] at this
  have hsetR : R.pts.setNames (.list N) = .ok ⟨R.pts.len, some ⟨namedPairs 0 N, N⟩⟩ := by
    have := setNames_list_eq R.pts N
    rwa [if_pos ⟨hs1.trans hlen, hs3⟩] at this
  have hax : strictAxes true L.pts R.pts = (⟨L.pts.len, some ⟨namedPairs 0 N, N⟩⟩,
      .ok (⟨R.pts.len, some ⟨namedPairs 0 N, N⟩⟩, some (List.replicate L.pts.len none))) := by
    have hl0 : L.pts.anyDefaultNames = true := by simp [AxisSt.anyDefaultNames, hpl]
    have hr0 : R.pts.anyDefaultNames = true := by simp [AxisSt.anyDefaultNames, hpr]
    unfold strictAxes
    simp only [hl0, hr0, Bool.not_true, Bool.false_and, Bool.and_false, Bool.false_eq_true, if_false,
      if_true, hnl, hnr, mergeNameLists_default, hN, hsetL, hsetR]
  obtain ⟨_, h1, h2⟩ := front_same m hL hR hfl hfr hn hs3 hs2
    (l' := ⟨L.pts.len, some ⟨namedPairs 0 N, N⟩⟩) (r' := ⟨R.pts.len, some ⟨namedPairs 0 N, N⟩⟩)
    (mk_ok hs1 hs3) (mk_ok (hs1.trans hlen) hs3) rfl rfl rfl rfl rfl rfl feature hord
  have hrun : L.mergeStrict m le R .point feature none true =
      match (mergeFront m (L.setAxis .point ⟨L.pts.len, some ⟨namedPairs 0 N, N⟩⟩)
        (R.setAxis .point ⟨R.pts.len, some ⟨namedPairs 0 N, N⟩⟩) .intersection feature none) with
      | (o, .error e) => (o, .error e)
      | (o, .ok ()) => (o.setAxis .point { o.pts with tbl := none }, .ok ()) := by
    unfold mergeStrict
    rw [if_neg (by simpa [axis] using hlen)]
    have hax' : strictAxes true (L.axis .point) (R.axis .point) = _ := hax
    rw [hax']
    dsimp only
    have hc : ((L.axis .point).namesCreated || (R.axis .point).namesCreated) = false := by
      simp [axis, AxisSt.namesCreated, hpl, hpr]
    rw [hc]
    cases mergeFront m (L.setAxis .point ⟨L.pts.len, some ⟨namedPairs 0 N, N⟩⟩)
        (R.setAxis .point ⟨R.pts.len, some ⟨namedPairs 0 N, N⟩⟩) .intersection feature none with
    | mk o res =>
      cases res with
      | error e => rfl
      | ok u => rfl
  constructor
  · intro hc
    obtain ⟨r, hr1, hr2, hr3⟩ := h1 hc
    rw [hrun, hr1]
    refine ⟨_, rfl, ⟨⟨hr2.wf.rows, hr2.wf.cols, none_ok _, hr2.wf.fts⟩, hr2.nP, hr2.nF, hr2.elem,
      hr2.ftNames⟩, ?_⟩
    have : r.pts.len = L.pts.len := by rw [hr2.nP]; simp [samePts]
    simp [setAxis, AxisSt.getNames, this]
  · intro hc
    have := h2 hc
    rw [hrun]
    cases hm : mergeFront m (L.setAxis .point ⟨L.pts.len, some ⟨namedPairs 0 N, N⟩⟩)
        (R.setAxis .point ⟨R.pts.len, some ⟨namedPairs 0 N, N⟩⟩) .intersection feature none with
    | mk o res =>
      rw [hm] at this
      dsimp only at this
      subst this
      rfl

/-! ## All names given -/

theorem allNamed_iff {a : AxisSt} (h : a.Ok) (hn : 0 < a.len) :
    a.anyDefaultNames = false ↔ ∀ x ∈ a.getNames, x ≠ none := by
  have hc := h.consistent.anyDefault_iff
  constructor
  · intro ha x hx e
    subst e
    have : a.anyDefaultNames = true := hc.2 (Or.inl (by
      rw [List.any_eq_true]; exact ⟨none, hx, by simp⟩))
    rw [ha] at this
    cases this
  · intro hall
    cases hd : a.anyDefaultNames with
    | false => rfl
    | true =>
      exfalso
      rcases hc.1 hd with h1 | h1
      · rw [List.any_eq_true] at h1
        obtain ⟨x, hx, he⟩ := h1
        exact hall x hx (by simpa using he)
      · have : a.getNames = List.replicate a.len none := by simp [AxisSt.getNames, h1]
        rw [this] at hall
        exact hall none (by simp; omega) rfl

theorem created_of_allNamed {a : AxisSt} (hn : 0 < a.len) (h : ∀ x ∈ a.getNames, x ≠ none) :
    a.namesCreated = true := by
  cases ht : a.tbl with
  | none =>
    have : a.getNames = List.replicate a.len none := by simp [AxisSt.getNames, ht]
    rw [this] at h
    exact absurd rfl (h none (by simp; omega))
  | some t => simp [AxisSt.namesCreated, ht]

/-- When every left name is given and is also in the right object, the 'intersection' has all left
points, each with one of the same name. -/
theorem joined_full {L R : List (Option String)} {mL mR : List Nat} (hM : Matching L R mL mR)
    (hall : ∀ x ∈ L, x ≠ none) (hsub : ∀ x ∈ L, x ∈ R) :
    (joined .intersection L.length R.length (nameMates L R)).map Prod.fst
        = (List.range L.length).map some ∧
    (joined .intersection L.length R.length (nameMates L R)).map (nameOfPair L R) = L := by
  have hin : ∀ i, i < L.length → i ∈ mL := by
    intro i hi
    rw [mem_left_iff hM (List.getElem?_eq_getElem hi)]
    exact ⟨hall _ (List.getElem_mem hi), hsub _ (List.getElem_mem hi)⟩
  have hf : (List.range L.length).filter (fun i => decide (i ∈ mL)) = List.range L.length := by
    rw [List.filter_eq_self]
    intro i hi
    simpa using hin i (by simpa using hi)
  rw [hM.joined_intersection, hf]
  refine ⟨by simp, ?_⟩
  rw [List.map_map]
  apply List.ext_getElem (by simp)
  intro i h1 h2
  simp [nameOfPair, h2]

/-- C19. `merge(point='strict')` of two objects with all point names given, the same ones in any order:
every point of the left object is joined with the right point of the same name; the points keep their
names and order. -/
theorem C19_strict_points_named (m : MergeVals V) (le : V → V → Bool) {L R : Obj V} (hL : L.WF)
    (hR : R.WF) (hfl : L.fts.namesCreated) (hfr : R.fts.namesCreated) (hn : 0 < L.pts.len)
    (hall : ∀ x ∈ L.pts.getNames, x ≠ none) (hperm : L.pts.getNames.Perm R.pts.getNames)
    (force : Bool) (feature : MergeMode) (hord : feature = .intersection → NamesInOrder L.fts) :
    (joinPts .intersection L R).map Prod.fst = (List.range L.pts.len).map some ∧
    (¬ Conflict m.nan L R (nameMates L.pts.getNames R.pts.getNames) →
      ∃ r, L.mergeStrict m le R .point feature none force = (r, .ok ()) ∧
        Merged m.nan L R (joinPts .intersection L R) (joinFts feature L R) r ∧
        r.pts.getNames = L.pts.getNames) ∧
    (Conflict m.nan L R (nameMates L.pts.getNames R.pts.getNames) →
      (L.mergeStrict m le R .point feature none force).2 = .error .InvalidArgumentValue) := by
  have hpL := hL.pts.length_getNames
  have hpR := hR.pts.length_getNames
  have hlen : L.pts.len = R.pts.len := by rw [← hpL, ← hpR]; exact hperm.length_eq
  have hallR : ∀ x ∈ R.pts.getNames, x ≠ none := fun x hx => hall x (hperm.mem_iff.2 hx)
  have hcl := created_of_allNamed hn hall
  have hcr := created_of_allNamed (by omega) hallR
  obtain ⟨tpl, htpl⟩ := Option.isSome_iff_exists.1 hcl
  obtain ⟨tpr, htpr⟩ := Option.isSome_iff_exists.1 hcr
  have hM := matching_of hL.pts hR.pts htpl htpr
  obtain ⟨hj1, hj2⟩ := joined_full hM hall (fun x hx => hperm.mem_iff.1 hx)
  rw [hpL, hpR] at hj1 hj2
  have hax : strictAxes force L.pts R.pts = (L.pts, .ok (R.pts, L.pts.getNamesNoGen)) := by
    unfold strictAxes
    rw [(allNamed_iff hL.pts hn).2 hall, (allNamed_iff hR.pts (by omega)).2 hallR]
    simp only [Bool.not_false, Bool.and_self, if_true]
    rw [if_pos hperm]
  have hN : L.pts.getNamesNoGen = some L.pts.getNames := by
    simp [AxisSt.getNamesNoGen, AxisSt.getNames, htpl]
  have hnd : L.pts.getNames.reduceOption.Nodup := by
    rw [AxisSt.getNames_of_some htpl]; exact (hL.pts tpl htpl).reduceOption_nodup
  have h := front_names m hL hR hcl hcr hfl hfr hn (by omega) .intersection feature hord
  have hrun : L.mergeStrict m le R .point feature none force =
      match (mergeFront m L R .intersection feature none) with
      | (o, .error e) => (o, .error e)
      | (o, .ok ()) => (match o.pts.setNames (.list L.pts.getNames) with
        | .error e => (o, .error e)
        | .ok a => (o.setAxis .point a, .ok ())) := by
    unfold mergeStrict
    rw [if_neg (by simpa [axis] using hlen)]
    have hax' : strictAxes force (L.axis .point) (R.axis .point) = _ := hax
    rw [hax']
    dsimp only
    have hc : ((L.axis .point).namesCreated || (R.axis .point).namesCreated) = true := by
      simp [axis, hcl]
    rw [hc, hN]
    have e1 : L.setAxis .point L.pts = L := rfl
    have e2 : R.setAxis .point R.pts = R := rfl
    rw [e1, e2]
    cases mergeFront m L R .intersection feature none with
    | mk o res =>
      cases res with
      | error e => rfl
      | ok u => rfl
  refine ⟨hj1, ?_, ?_⟩
  · intro hc
    obtain ⟨r, hr1, hr2, hr3⟩ := h.1 hc
    have hrl : r.pts.len = L.pts.getNames.length := by
      rw [hr2.nP, hpL]
      have := congrArg List.length hj1
      simpa [joinPts] using this
    have hset := setNames_list_eq r.pts L.pts.getNames
    rw [if_pos ⟨hrl.symm, hnd⟩] at hset
    rw [hrun, hr1]
    dsimp only
    rw [hset]
    refine ⟨_, rfl, ⟨⟨hr2.wf.rows, hr2.wf.cols, mk_ok hrl.symm hnd, hr2.wf.fts⟩, hr2.nP, hr2.nF,
      hr2.elem, hr2.ftNames⟩, rfl⟩
  · intro hc
    have := h.2 hc
    rw [hrun]
    cases hm : mergeFront m L R .intersection feature none with
    | mk o res =>
      rw [hm] at this
      dsimp only at this
      subst this
      rfl

/-- C19. `merge(feature='strict')` on point names, all feature names given, the same ones in any
order: all features of the left object, in their order. -/
theorem C19_strict_features_named (m : MergeVals V) (le : V → V → Bool) {L R : Obj V} (hL : L.WF)
    (hR : R.WF) (hpl : L.pts.namesCreated) (hpr : R.pts.namesCreated) (hnL : 0 < L.pts.len)
    (hnR : 0 < R.pts.len) (hn : 0 < L.fts.len)
    (hall : ∀ x ∈ L.fts.getNames, x ≠ none) (hperm : L.fts.getNames.Perm R.fts.getNames)
    (force : Bool) (point : MergeMode) (hord : NamesInOrder L.fts) :
    (joinFts .intersection L R).map Prod.fst = (List.range L.fts.len).map some ∧
    (¬ Conflict m.nan L R (nameMates L.pts.getNames R.pts.getNames) →
      ∃ r, L.mergeStrict m le R .feature point none force = (r, .ok ()) ∧
        Merged m.nan L R (joinPts point L R) (joinFts .intersection L R) r ∧
        r.fts.getNames = L.fts.getNames ∧
        r.pts.getNames = (joinPts point L R).map (nameOfPair L.pts.getNames R.pts.getNames)) ∧
    (Conflict m.nan L R (nameMates L.pts.getNames R.pts.getNames) →
      (L.mergeStrict m le R .feature point none force).2 = .error .InvalidArgumentValue) := by
  have hpL := hL.fts.length_getNames
  have hpR := hR.fts.length_getNames
  have hlen : L.fts.len = R.fts.len := by rw [← hpL, ← hpR]; exact hperm.length_eq
  have hallR : ∀ x ∈ R.fts.getNames, x ≠ none := fun x hx => hall x (hperm.mem_iff.2 hx)
  have hcl := created_of_allNamed hn hall
  have hcr := created_of_allNamed (by omega) hallR
  obtain ⟨tfl, htfl⟩ := Option.isSome_iff_exists.1 hcl
  obtain ⟨tfr, htfr⟩ := Option.isSome_iff_exists.1 hcr
  have hM := matching_of hL.fts hR.fts htfl htfr
  obtain ⟨hj1, hj2⟩ := joined_full hM hall (fun x hx => hperm.mem_iff.1 hx)
  rw [hpL, hpR] at hj1 hj2
  have hax : strictAxes force L.fts R.fts = (L.fts, .ok (R.fts, L.fts.getNamesNoGen)) := by
    unfold strictAxes
    rw [(allNamed_iff hL.fts hn).2 hall, (allNamed_iff hR.fts (by omega)).2 hallR]
    simp only [Bool.not_false, Bool.and_self, if_true]
    rw [if_pos hperm]
  have hN : L.fts.getNamesNoGen = some L.fts.getNames := by
    simp [AxisSt.getNamesNoGen, AxisSt.getNames, htfl]
  have hnd : L.fts.getNames.reduceOption.Nodup := by
    rw [AxisSt.getNames_of_some htfl]; exact (hL.fts tfl htfl).reduceOption_nodup
  have h := front_names m hL hR hpl hpr hcl hcr hnL hnR point .intersection (fun _ => hord)
  have hrun : L.mergeStrict m le R .feature point none force =
      match (mergeFront m L R point .intersection none) with
      | (o, .error e) => (o, .error e)
      | (o, .ok ()) => (match o.fts.setNames (.list L.fts.getNames) with
        | .error e => (o, .error e)
        | .ok a => (o.setAxis .feature a, .ok ())) := by
    unfold mergeStrict
    rw [if_neg (by simpa [axis] using hlen)]
    have hax' : strictAxes force (L.axis .feature) (R.axis .feature) = _ := hax
    rw [hax']
    dsimp only
    have hc : ((L.axis .feature).namesCreated || (R.axis .feature).namesCreated) = true := by
      simp [axis, hcl]
    rw [hc, hN]
    have e1 : L.setAxis .feature L.fts = L := rfl
    have e2 : R.setAxis .feature R.fts = R := rfl
    rw [e1, e2]
    cases mergeFront m L R point .intersection none with
    | mk o res =>
      cases res with
      | error e => rfl
      | ok u => rfl
  refine ⟨hj1, ?_, ?_⟩
  · intro hc
    obtain ⟨r, hr1, hr2, hr3⟩ := h.1 hc
    have hrl : r.fts.len = L.fts.getNames.length := by
      rw [hr2.nF, hpL]
      have := congrArg List.length hj1
      simpa [joinFts] using this
    have hset := setNames_list_eq r.fts L.fts.getNames
    rw [if_pos ⟨hrl.symm, hnd⟩] at hset
    rw [hrun, hr1]
    dsimp only
    rw [hset]
    refine ⟨_, rfl, ⟨⟨hr2.wf.rows, hr2.wf.cols, hr2.wf.pts, mk_ok hrl.symm hnd⟩, hr2.nP, hr2.nF,
      hr2.elem, ?_⟩, rfl, hr3⟩
    exact hj2.symm
  · intro hc
    have := h.2 hc
    rw [hrun]
    cases hm : mergeFront m L R point .intersection none with
    | mk o res =>
      rw [hm] at this
      dsimp only at this
      subst this
      rfl

/-- C19. A strict axis of different lengths, with all names given but not the same ones, or with
default names and without `force`: refused, and nothing is changed. -/
theorem C19_strict_refused (m : MergeVals V) (le : V → V → Bool) {L R : Obj V} (ax : Ax)
    (mode : MergeMode) (on : Option OnFt) (force : Bool)
    (h : (L.axis ax).len ≠ (R.axis ax).len ∨
      ((L.axis ax).anyDefaultNames = false ∧ (R.axis ax).anyDefaultNames = false ∧
        ¬ (L.axis ax).getNames.Perm (R.axis ax).getNames) ∨
      (force = false ∧ ((L.axis ax).anyDefaultNames = true ∨ (R.axis ax).anyDefaultNames = true))) :
    L.mergeStrict m le R ax mode on force = (L, .error .InvalidArgumentValue) := by
  have hself : L.setAxis ax (L.axis ax) = L := by cases ax <;> rfl
  unfold mergeStrict
  by_cases hl : (L.axis ax).len ≠ (R.axis ax).len
  · rw [if_pos hl]
  · rw [if_neg hl]
    have hax : strictAxes force (L.axis ax) (R.axis ax) = (L.axis ax, .error .InvalidArgumentValue) := by
      rcases h with h | ⟨h1, h2, h3⟩ | ⟨h1, h2⟩
      · exact absurd h hl
      · unfold strictAxes
        simp only [h1, h2, Bool.not_false, Bool.and_self, if_true]
        rw [if_neg h3]
      · unfold strictAxes
        subst h1
        have : (! (L.axis ax).anyDefaultNames && ! (R.axis ax).anyDefaultNames) = false := by
          rcases h2 with h2 | h2 <;> simp [h2]
        simp [this]
    rw [hax]
    dsimp only
    rw [hself]

/-- C19. `merge(point='strict', onFeature=name)`: refused, without a change, unless the feature is in
both objects, has no repeated values and has the same values in both; otherwise the join of the points
with equal values. -/
theorem C19_strict_on_partial (m : MergeVals V) {L R : Obj V} (hL : L.WF) (hR : R.WF)
    (hfl : L.fts.namesCreated) (hfr : R.fts.namesCreated) (hn : 0 < L.pts.len) {s : String}
    {iL iR : Nat} (hiL : L.fts.getNames[iL]? = some (some s)) (hiR : R.fts.getNames[iR]? = some (some s))
    (feature : MergeMode) (hord : feature ≠ .union → NamesInOrder L.fts)
    (hfirst : feature = .left → ∀ a < iL, nameMates L.fts.getNames R.fts.getNames a ≠ []) :
    (¬ (UniqueIn L iL ∧ (L.columnOf m.nan iL).Perm (R.columnOf m.nan iR)) →
      ∃ e, L.mergeStrictOn m R feature s = (L, .error e)) ∧
    (UniqueIn L iL → (L.columnOf m.nan iL).Perm (R.columnOf m.nan iR) →
      (¬ Conflict m.nan L R (valueMates m.nan L R iL iR) →
        ∃ r, L.mergeStrictOn m R feature s = (r, .ok ()) ∧
          Merged m.nan L R (joinPtsOn m.nan .intersection L R iL iR) (joinFts feature L R) r) ∧
      (Conflict m.nan L R (valueMates m.nan L R iL iR) →
        (L.mergeStrictOn m R feature s).2 = .error .InvalidArgumentValue)) := by
  obtain ⟨tfl, htfl⟩ := Option.isSome_iff_exists.1 hfl
  obtain ⟨tfr, htfr⟩ := Option.isSome_iff_exists.1 hfr
  have h1 : L.fts.getIndexByName s = .ok iL := by
    have hiL := hiL
    unfold AxisSt.getIndexByName
    rw [AxisSt.getNames_of_some htfl, (hL.fts tfl htfl).iff] at hiL
    rw [htfl]; simp [hiL]
  have h2 : R.fts.getIndexByName s = .ok iR := by
    have hiR := hiR
    unfold AxisSt.getIndexByName
    rw [AxisSt.getNames_of_some htfr, (hR.fts tfr htfr).iff] at hiR
    rw [htfr]; simp [hiR]
  have hiL' : iL < L.fts.len := by
    rw [← hL.fts.length_getNames]; exact (List.getElem?_eq_some_iff.1 hiL).1
  have hiR' : iR < R.fts.len := by
    rw [← hR.fts.length_getNames]; exact (List.getElem?_eq_some_iff.1 hiR).1
  constructor
  · intro hnot
    unfold mergeStrictOn
    by_cases hl : L.pts.len = R.pts.len
    · rw [if_neg (by simpa using hl), h1, h2]
      dsimp only
      by_cases hu : (L.columnOf m.nan iL).Nodup
      · rw [if_neg (by simpa using hu), if_pos]
        · exact ⟨_, rfl⟩
        · intro hp
          exact hnot ⟨(columnOf_nodup hL m.nan hiL').1 hu, hp⟩
      · rw [if_pos hu]
        exact ⟨_, rfl⟩
    · rw [if_pos hl]
      exact ⟨_, rfl⟩
  · intro hu hp
    have hlen : L.pts.len = R.pts.len := by
      have := hp.length_eq
      simpa [columnOf, hL.rows, hR.rows] using this
    have hu' := (columnOf_nodup hL m.nan hiL').2 hu
    have huR : UniqueIn R iR := (columnOf_nodup hR m.nan hiR').1 (hp.nodup hu')
    have h := front_on m hL hR hfl hfr hn (by omega) (f := .name s) rfl hiL hiR (Or.inl hu)
      (Or.inl huR) .intersection feature hord hfirst
    have he : L.mergeStrictOn m R feature s = L.mergeFront m R .intersection feature (some (.name s)) := by
      unfold mergeStrictOn
      rw [if_neg (by simpa using hlen), h1, h2]
      dsimp only
      rw [if_neg (by simpa using hu'), if_neg (by simpa using hp)]
    rw [he]
    refine ⟨?_, h.2⟩
    intro hc
    obtain ⟨r, hr1, hr2, _⟩ := h.1 hc
    exact ⟨r, hr1, hr2⟩

end Obj

/-! ## Concrete cases -/

def strL : Obj MV := ⟨[[.n 1, .n 2], [.n 3, .n 4]], ⟨2, none⟩, axN ["a", "b"]⟩
def strR : Obj MV := ⟨[[.n 5], [.n 6]], ⟨2, none⟩, axN ["c"]⟩

example : (strL.mergeStrict mvVals mvLe strR .point .union none true).2 = .ok () ∧
    (strL.mergeStrict mvVals mvLe strR .point .union none true).1.data
      = [[.n 1, .n 2, .n 5], [.n 3, .n 4, .n 6]] := by decide

/-- The points 'x' and (unnamed) against the points 'y' and (unnamed). -/
def forceL : Obj MV := ⟨[[.n 1], [.n 2]], ⟨2, some ⟨[("x", 0)], [some "x", none]⟩⟩, axN ["a"]⟩
def forceR : Obj MV := ⟨[[.n 5], [.n 6]], ⟨2, some ⟨[("y", 0)], [some "y", none]⟩⟩, axN ["b"]⟩

/-- C19 violated. `merge(point='strict', force=True)` with default names must be refused when the given
names at an index differ (base.py:4660-4664); the point 'x' is joined with the point 'y'. -/
theorem C19_strict_force_violated :
    let r := forceL.mergeStrict mvVals mvLe forceR .point .union none true
    r.2 = .ok () ∧ r.1.data = [[.n 1, .n 5], [.n 2, .n 6]] ∧
    r.1.pts.getNames = [some "x", none] := by
  decide

def leakL : Obj MV := ⟨[[.n 1], [.n 2]], ⟨2, none⟩, axN ["a"]⟩
def leakR : Obj MV := ⟨[[.n 1], [.n 3]], ⟨2, none⟩, axN ["a"]⟩

/-- C19 violated. A refused strict merge leaves the names made up for it in the object. -/
theorem C19_strict_leak_violated :
    let r := leakL.mergeStrict mvVals mvLe leakR .point .union none true
    r.2 = .error .InvalidArgumentValue ∧
    r.1.pts.getNames = [some "_STRICT0", some "_STRICT1"] := by
  decide

end Nimble
