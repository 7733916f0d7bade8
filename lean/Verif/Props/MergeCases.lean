import Verif.Props.MergeJoin
import Verif.Props.Sort

/-!
# C19: merging on a feature, refusals and counterexamples
-/

namespace Nimble
namespace Obj
variable {V : Type} [DecidableEq V]

/-- C19. Merging on a feature of both objects, without repeated values in one of them, for
`point` 'left' or 'intersection': the points of the result are the pairs of a left and a right point
with the same value (a missing value is equal to none) and, for 'left', the left points without such
a right point; features, names and elements are as for merging on point names; the points have no
names afterwards.  Two differing values which are not missing: refused.
Missing from the full statement (each is a counterexample below): the values of the right object are
unique, or no value of a common feature is missing on the left; the feature names of the left object
were created in order unless `feature='union'`; for `feature='left'` every feature before the one merged
on is common. -/
theorem C19_merge_on_feature_partial (m : MergeVals V) (le : V → V → Bool) {L R : Obj V} (hL : L.WF)
    (hR : R.WF) (hfl : L.fts.namesCreated) (hfr : R.fts.namesCreated) (hnL : 0 < L.pts.len)
    (hnR : 0 < R.pts.len) {f : OnFt} {s : String} (hs : L.resolveOn R f = .ok s) {iL iR : Nat}
    (hiL : L.fts.getNames[iL]? = some (some s)) (hiR : R.fts.getNames[iR]? = some (some s))
    (huniq : UniqueIn L iL ∨ UniqueIn R iR)
    (hsafe : UniqueIn R iR ∨ ∀ i a, nameMates L.fts.getNames R.fts.getNames a ≠ [] →
      L.elem? i a ≠ some m.nan)
    (point feature : MergeMode) (hpt : point ≠ .union) (hord : feature ≠ .union → NamesInOrder L.fts)
    (hfirst : feature = .left → ∀ a < iL, nameMates L.fts.getNames R.fts.getNames a ≠ []) :
    (¬ Conflict m.nan L R (valueMates m.nan L R iL iR) →
      ∃ r, L.merge m le R point feature (some f) = (r, .ok ()) ∧
        Merged m.nan L R (joinPtsOn m.nan point L R iL iR) (joinFts feature L R) r ∧
        r.pts.getNames = (joinPtsOn m.nan point L R iL iR).map (fun _ => none)) ∧
    (Conflict m.nan L R (valueMates m.nan L R iL iR) →
      (L.merge m le R point feature (some f)).2 = .error .InvalidArgumentValue) := by
  have h := front_on m hL hR hfl hfr hnL hnR hs hiL hiR huniq hsafe point feature hord hfirst
  have he : L.merge m le R point feature (some f) = L.mergeFront m R point feature (some f) := by
    unfold merge
    dsimp only
    split
    · rw [if_neg (by simp [hpt])]
    · rfl
  rw [he]
  exact h

theorem mem_joinFts_on {L R : Obj V} (hL : L.WF) (hR : R.WF) {iL iR : Nat} {s : String}
    (hiL : L.fts.getNames[iL]? = some (some s)) (hiR : R.fts.getNames[iR]? = some (some s))
    (feature : MergeMode) : (some iL, some iR) ∈ joinFts feature L R := by
  have hlL := hL.fts.length_getNames
  have hlR := hR.fts.length_getNames
  have h1 : iR ∈ nameMates L.fts.getNames R.fts.getNames iL := by
    unfold nameMates
    rw [List.mem_filter]
    refine ⟨by simpa using (List.getElem?_eq_some_iff.1 hiR).1, ?_⟩
    rw [hiL, hiR]; simp
  unfold joinFts joined
  rw [List.mem_append]
  left
  rw [List.mem_flatMap]
  refine ⟨iL, by simpa [← hlL] using (List.getElem?_eq_some_iff.1 hiL).1, ?_⟩
  rw [if_neg (by intro e; rw [e] at h1; cases h1)]
  exact List.mem_map.2 ⟨iR, h1, rfl⟩

/-- C19. `merge(point='union', onFeature=name)`: the join with the points of both objects, sorted
(stably) by the values of the feature merged on. -/
theorem C19_merge_on_feature_union_partial (m : MergeVals V) {le : V → V → Bool} (hle : TotalOrd le)
    {L R : Obj V} (hL : L.WF)
    (hR : R.WF) (hfl : L.fts.namesCreated) (hfr : R.fts.namesCreated) (hnL : 0 < L.pts.len)
    (hnR : 0 < R.pts.len) {s : String} (hs0 : s ≠ "") {iL iR : Nat}
    (hiL : L.fts.getNames[iL]? = some (some s)) (hiR : R.fts.getNames[iR]? = some (some s))
    (huniq : UniqueIn L iL ∨ UniqueIn R iR)
    (hsafe : UniqueIn R iR ∨ ∀ i a, nameMates L.fts.getNames R.fts.getNames a ≠ [] →
      L.elem? i a ≠ some m.nan)
    (feature : MergeMode) (hord : feature ≠ .union → NamesInOrder L.fts)
    (hfirst : feature = .left → ∀ a < iL, nameMates L.fts.getNames R.fts.getNames a ≠ []) :
    (¬ Conflict m.nan L R (valueMates m.nan L R iL iR) →
      ∃ r0 r l j, L.merge m le R .union feature (some (.name s)) = (r, .ok ()) ∧
        Merged m.nan L R (joinPtsOn m.nan .union L R iL iR) (joinFts feature L R) r0 ∧
        (joinFts feature L R)[j]? = some (some iL, some iR) ∧
        Rearranged r0 r .point l ∧ l.Pairwise (LexBefore le false [r0.vector .feature j])) ∧
    (Conflict m.nan L R (valueMates m.nan L R iL iR) →
      (L.merge m le R .union feature (some (.name s))).2 = .error .InvalidArgumentValue) := by
  have h := front_on m hL hR hfl hfr hnL hnR (f := .name s) rfl hiL hiR huniq hsafe .union feature
    hord hfirst
  have ht : onTruthy (some (OnFt.name s)) = true := by simp [onTruthy, hs0]
  constructor
  · intro hc
    obtain ⟨r0, h1, h2, _⟩ := h.1 hc
    have hmem := mem_joinFts_on hL hR hiL hiR feature
    obtain ⟨j, hj⟩ := List.mem_iff_getElem?.1 hmem
    have hname : r0.fts.getNames[j]? = some (some s) := by
      rw [h2.ftNames, List.getElem?_map, hj]
      simp [nameOfPair, hiL]
    have hidx := (h2.wf.fts.getName_iff s j).1 hname
    obtain ⟨r, l, h3, h4, h5⟩ := C10_sort_lexicographic_stable hle false h2.wf .point [.str s] [j]
      (by simp only [List.map_cons, List.map_nil, List.cons.injEq, and_true]; exact hidx)
    refine ⟨r0, r, l, j, ?_, h2, hj, h4, by simpa [Ax.off] using h5⟩
    unfold merge
    rw [h1]
    dsimp only
    rw [if_pos ⟨rfl, ht⟩]
    exact h3
  · intro hc
    have h1 := h.2 hc
    unfold merge
    dsimp only
    rw [h1]
    exact h1

/-- C19. Merging on a feature which is not in both objects, or which has repeated values in both, is
refused and changes nothing. -/
theorem C19_merge_on_feature_refused (m : MergeVals V) (le : V → V → Bool) {L R : Obj V} (hL : L.WF)
    (hR : R.WF) (hfl : L.fts.namesCreated) (hfr : R.fts.namesCreated) {s : String}
    (point feature : MergeMode)
    (h : some s ∉ L.fts.getNames ∨ some s ∉ R.fts.getNames ∨
      ∃ iL iR, L.fts.getNames[iL]? = some (some s) ∧ R.fts.getNames[iR]? = some (some s) ∧
        ¬ UniqueIn L iL ∧ ¬ UniqueIn R iR) :
    L.merge m le R point feature (some (.name s)) = (L, .error .InvalidArgumentValue) := by
  obtain ⟨tfl, htfl⟩ := Option.isSome_iff_exists.1 hfl
  obtain ⟨tfr, htfr⟩ := Option.isSome_iff_exists.1 hfr
  have hno : ∀ (a : AxisSt) (ha : a.Ok) (t : NameTable) (ht : a.tbl = some t), some s ∉ a.getNames →
      a.getIndexByName s = .error .KeyError := by
    intro a ha t ht hn
    unfold AxisSt.getIndexByName
    rw [ht]
    dsimp only
    cases hg : PyDict.get? t.names s with
    | none => rfl
    | some i =>
      exfalso; apply hn
      rw [AxisSt.getNames_of_some ht]
      exact List.mem_of_getElem? (((ha t ht).iff s i).2 hg)
  have hyes : ∀ (a : AxisSt) (ha : a.Ok) (t : NameTable) (ht : a.tbl = some t) (i : Nat),
      a.getNames[i]? = some (some s) → a.getIndexByName s = .ok i := by
    intro a ha t ht i hi
    unfold AxisSt.getIndexByName
    rw [AxisSt.getNames_of_some ht, (ha t ht).iff] at hi
    rw [ht]; simp [hi]
  have hc : L.checkOn m.nan R s = .error .InvalidArgumentValue := by
    unfold checkOn
    rcases h with h | h | ⟨iL, iR, h1, h2, h3, h4⟩
    · rw [hno _ hL.fts tfl htfl h]
    · rw [hno _ hR.fts tfr htfr h]
      cases L.fts.getIndexByName s <;> rfl
    · rw [hyes _ hL.fts tfl htfl iL h1, hyes _ hR.fts tfr htfr iR h2]
      dsimp only
      rw [if_neg]
      have hiL' : iL < L.fts.len := by
        rw [← hL.fts.length_getNames]; exact (List.getElem?_eq_some_iff.1 h1).1
      have hiR' : iR < R.fts.len := by
        rw [← hR.fts.length_getNames]; exact (List.getElem?_eq_some_iff.1 h2).1
      rw [columnOf_nodup hL m.nan hiL', columnOf_nodup hR m.nan hiR']
      tauto
  have hcheck : L.mergeCheck m.nan R (some (.name s)) = .error .InvalidArgumentValue := by
    unfold mergeCheck
    rw [if_neg (by simp), if_neg (by simp [hfl, hfr])]
    simp only [bind, Except.bind, resolveOn, hc]
  unfold merge mergeFront
  rw [hcheck]

/-- `-n ≤ i < n`, and the position it denotes (counting from the end when negative). -/
def DenotesPos (n : Nat) (i : Int) (k : Nat) : Prop :=
  -(n : Int) ≤ i ∧ i < n ∧ (k : Int) = if i < 0 then i + n else i

/-- C19. An index as `onFeature` stands for the name the features have there in both objects: merging
on the index is merging on the name (before the points are sorted for 'union'), and is refused without
effect when the two features have different names or one of them has none. -/
theorem C19_merge_on_index (m : MergeVals V) (le : V → V → Bool) {L R : Obj V} (hL : L.WF)
    (hR : R.WF) (hfl : L.fts.namesCreated) (hfr : R.fts.namesCreated) {i : Int} {a b : Nat}
    (ha : DenotesPos L.fts.len i a) (hb : DenotesPos R.fts.len i b) (point feature : MergeMode) :
    (∀ s, L.fts.getNames[a]? = some (some s) → R.fts.getNames[b]? = some (some s) →
      L.mergeFront m R point feature (some (.index i)) =
        L.mergeFront m R point feature (some (.name s)) ∧
      (point ≠ .union → L.merge m le R point feature (some (.index i)) =
        L.merge m le R point feature (some (.name s)))) ∧
    ((¬ ∃ s, L.fts.getNames[a]? = some (some s) ∧ R.fts.getNames[b]? = some (some s)) →
      L.merge m le R point feature (some (.index i)) = (L, .error .InvalidArgumentValue)) := by
  have h1 : L.fts.getIndex (.int i) = .ok (a : Int) :=
    (C04_getIndex_int _ _ _).2 ⟨ha.1, ha.2.1, ha.2.2⟩
  have h2 : R.fts.getIndex (.int i) = .ok (b : Int) :=
    (C04_getIndex_int _ _ _).2 ⟨hb.1, hb.2.1, hb.2.2⟩
  have hal : a < L.fts.getNames.length := by
    rw [hL.fts.length_getNames]; have := ha.2.1; have := ha.1; have := ha.2.2; split at this <;> omega
  have hbl : b < R.fts.getNames.length := by
    rw [hR.fts.length_getNames]; have := hb.2.1; have := hb.1; have := hb.2.2; split at this <;> omega
  constructor
  · intro s hsa hsb
    have hr : L.resolveOn R (.index i) = .ok s := by
      unfold resolveOn
      simp only [bind, Except.bind, h1, h2, Int.toNat_natCast, hsa, hsb, Option.join_some, if_true]
    have hf : L.mergeFront m R point feature (some (.index i)) =
        L.mergeFront m R point feature (some (.name s)) := by
      have : L.mergeCheck m.nan R (some (.index i)) = L.mergeCheck m.nan R (some (.name s)) := by
        unfold mergeCheck
        dsimp only
        rw [hr]
        rfl
      unfold mergeFront
      rw [this]
    refine ⟨hf, fun hp => ?_⟩
    unfold merge
    rw [hf]
    dsimp only
    cases (L.mergeFront m R point feature (some (.name s))).2 <;> simp [hp]
  · intro hno
    have hr : L.resolveOn R (.index i) = .error .InvalidArgumentValue := by
      unfold resolveOn
      simp only [bind, Except.bind, h1, h2, Int.toNat_natCast]
      rw [List.getElem?_eq_getElem hal, List.getElem?_eq_getElem hbl] at hno ⊢
      cases hx : L.fts.getNames[a] with
      | none => simp
      | some s =>
        cases hy : R.fts.getNames[b] with
        | none => simp
        | some t =>
          have : s ≠ t := by
            intro e; apply hno; exact ⟨s, by rw [hx], by rw [hy, e]⟩
          simp [this]
    have hcheck : L.mergeCheck m.nan R (some (.index i)) = .error .InvalidArgumentValue := by
      unfold mergeCheck
      rw [if_neg (by simp), if_neg (by simp [hfl, hfr])]
      simp only [bind, Except.bind, hr]
    unfold merge mergeFront
    rw [hcheck]

end Obj

/-! ## Concrete cases -/

/-- Values for the examples: missing, integers and strings. -/
inductive MV where
  | nan
  | n (k : Nat)
  | s (x : String)
  deriving DecidableEq, Repr

def mvVals : MergeVals MV where
  nan := .nan
  ofName := .s
  ofIdx := .n
  ofName_inj := fun _ _ h => by cases h; rfl
  ofIdx_inj := fun _ _ h => by cases h; rfl
  ofName_ne_ofIdx := fun _ _ h => by cases h
  ofName_ne_nan := fun _ h => by cases h
  ofIdx_ne_nan := fun _ h => by cases h

def mvLe : MV → MV → Bool
  | .nan, _ => true
  | .n _, .nan => false
  | .n a, .n b => decide (a ≤ b)
  | .n _, .s _ => true
  | .s _, .nan => false
  | .s _, .n _ => false
  | .s a, .s b => decide (a ≤ b)

/-- An axis with the given names, as `setNames` with a list creates it. -/
def axN (l : List String) : AxisSt := ⟨l.length, some ⟨namedPairs 0 (l.map some), l.map some⟩⟩

theorem axN_eq (l : List String) (h : l.Nodup) :
    AxisSt.init l.length (some (l.map some)) = .ok (axN l) := by
  unfold axN
  exact init_some_ok (by simp) (by simpa [List.reduceOption, List.filterMap_map] using h)

theorem axN_ok {l : List String} (h : l.Nodup) : (axN l).Ok :=
  mk_ok (by simp) (by simpa [List.reduceOption, List.filterMap_map] using h)

theorem axN_inOrder {l : List String} (h : l.Nodup) : NamesInOrder (axN l) := by
  have := setNames_list_eq ⟨l.length, none⟩ (l.map some)
  rw [if_pos ⟨by simp, by simpa [List.reduceOption, List.filterMap_map] using h⟩] at this
  exact setNames_inOrder this

def exL : Obj MV := ⟨[[.s "a", .n 1, .nan], [.s "b", .n 2, .s "Y"]], axN ["p1", "p2"],
  axN ["f1", "f2", "f3"]⟩
def exR : Obj MV := ⟨[[.s "Y", .n 5], [.s "Z", .n 6]], axN ["p2", "p3"], axN ["f3", "f5"]⟩

theorem exL_wf : exL.WF := ⟨rfl, by decide, axN_ok (by decide), axN_ok (by decide)⟩
theorem exR_wf : exR.WF := ⟨rfl, by decide, axN_ok (by decide), axN_ok (by decide)⟩

/-- A case of `C19_merge_on_points_partial`. -/
example : (exL.merge mvVals mvLe exR .union .union none).2 = .ok () ∧
    (exL.merge mvVals mvLe exR .union .union none).1.data =
      [[.s "a", .n 1, .nan, .nan], [.s "b", .n 2, .s "Y", .n 5], [.nan, .nan, .s "Z", .n 6]] ∧
    (exL.merge mvVals mvLe exR .union .union none).1.pts.getNames = [some "p1", some "p2", some "p3"] ∧
    (exL.merge mvVals mvLe exR .union .union none).1.fts.getNames
      = [some "f1", some "f2", some "f3", some "f5"] := by decide

example : joinPts .union exL exR = [(some 0, none), (some 1, some 0), (none, some 1)] ∧
    joinFts .intersection exL exR = [(some 2, some 0)] := by decide

example : NamesInOrder exL.fts ∧ exL.pts.namesCreated ∧ 0 < exL.pts.len :=
  ⟨axN_inOrder (by decide), rfl, by decide⟩

/-- A case of `C19_merge_on_feature_partial`: several right points for one left point. -/
def exOnL : Obj MV := ⟨[[.n 1, .s "x"], [.n 2, .s "y"]], ⟨2, none⟩, axN ["id", "a"]⟩
def exOnR : Obj MV := ⟨[[.n 7, .n 2], [.n 8, .n 2], [.n 9, .n 3]], ⟨3, none⟩, axN ["b", "id"]⟩

example : (exOnL.merge mvVals mvLe exOnR .left .union (some (.name "id"))).2 = .ok () ∧
    (exOnL.merge mvVals mvLe exOnR .left .union (some (.name "id"))).1.data =
      [[.n 1, .s "x", .nan], [.n 2, .s "y", .n 7], [.n 2, .s "y", .n 8]] ∧
    Obj.joinPtsOn .nan .left exOnL exOnR 0 1 = [(some 0, none), (some 1, some 0), (some 1, some 1)] := by
  decide

/-- Cases of `C19_merge_on_index`: index -1 is 'b' in both, index 0 has different names. -/
example : Obj.DenotesPos 2 (-1) 1 ∧ (axN ["a", "b"]).getNames[1]? = some (some "b") ∧
    (axN ["c", "b"]).getNames[1]? = some (some "b") ∧
    (Obj.merge mvVals mvLe ⟨[[.n 1, .n 2]], ⟨1, none⟩, axN ["a", "b"]⟩
      ⟨[[.n 5, .n 2]], ⟨1, none⟩, axN ["c", "b"]⟩ .left .union (some (.index (-1)))).1.data
      = [[.n 1, .n 2, .n 5]] ∧
    (Obj.merge mvVals mvLe ⟨[[.n 1, .n 2]], ⟨1, none⟩, axN ["a", "b"]⟩
      ⟨[[.n 5, .n 2]], ⟨1, none⟩, axN ["c", "b"]⟩ .left .union (some (.index 0))).2
      = .error .InvalidArgumentValue := by
  refine ⟨⟨by decide, by decide, by decide⟩, by decide, by decide, by decide, by decide⟩

/-! ## Counterexamples -/

/-- The left object has the feature names `{'b': 1, 'a': 0}`, given as a dict. -/
def dictL : Obj MV := ⟨[[.n 1, .n 2]], axN ["p"],
  match AxisSt.setNames ⟨2, none⟩ (.dict [(some "b", 1), (some "a", 0)]) with
  | .ok a => a
  | .error _ => ⟨2, none⟩⟩
def dictR : Obj MV := ⟨[[.n 1, .n 2]], axN ["p"], axN ["a", "b"]⟩

/-- C19 violated. Two objects with the same names and the same values: `feature='intersection'` is
refused for different values, because the features of the left object are taken in the order of their
indices and those of the right object in the order of the dict of names. -/
theorem C19_intersection_order_violated :
    dictL.data = dictR.data ∧ dictL.pts.getNames = dictR.pts.getNames ∧
    dictL.fts.getNames = dictR.fts.getNames ∧
    (dictL.merge mvVals mvLe dictR .left .intersection none).2 = .error .InvalidArgumentValue := by
  decide

/-- C19 violated. The same, merging on a feature: the merge succeeds, with the values of the features
'a' and 'b' exchanged. -/
theorem C19_intersection_labels_violated :
    let r := dictL.merge mvVals mvLe dictR .left .intersection (some (.name "a"))
    r.2 = .ok () ∧ r.1.fts.getNames = [some "a", some "b"] ∧ r.1.data = [[.n 2, .n 1]] := by
  decide

def onLeftL : Obj MV := ⟨[[.n 5, .n 1, .n 7], [.n 6, .n 2, .n 8]], ⟨2, none⟩, axN ["a", "id", "b"]⟩
def onLeftR : Obj MV := ⟨[[.n 1, .n 7], [.n 2, .n 8]], ⟨2, none⟩, axN ["id", "b"]⟩

/-- C19 violated. `merge(point='intersection', feature='left', onFeature='id')`: both objects have the
ids 1 and 2, but as a feature which is not common comes before 'id' in the left object, the ids of the
right are compared with the values of that feature, and the result is empty. -/
theorem C19_left_on_violated :
    let r := onLeftL.merge mvVals mvLe onLeftR .intersection .left (some (.name "id"))
    Obj.joinPtsOn .nan .intersection onLeftL onLeftR 1 0 = [(some 0, some 0), (some 1, some 1)] ∧
    r.2 = .ok () ∧ r.1.data = [] := by
  decide

def fillL : Obj MV := ⟨[[.n 1, .nan]], ⟨1, none⟩, axN ["id", "x"]⟩
def fillR : Obj MV := ⟨[[.n 1, .n 5], [.n 1, .n 6]], ⟨2, none⟩, axN ["id", "x"]⟩

/-- C19 violated. The value of the left point is missing, so it contradicts nothing; but it is filled
from the first right point, and the second one is then refused. -/
theorem C19_fill_violated :
    ¬ Conflict .nan fillL fillR (Obj.valueMates .nan fillL fillR 0 0) ∧
    (fillL.merge mvVals mvLe fillR .left .union (some (.name "id"))).2
      = .error .InvalidArgumentValue := by
  refine ⟨?_, by decide⟩
  have hL : fillL.WF := ⟨rfl, by decide, none_ok 1, axN_ok (by decide)⟩
  have hR : fillR.WF := ⟨rfl, by decide, none_ok 2, axN_ok (by decide)⟩
  rw [← not_conflict_iff hL hR .nan (matching_of hL.fts hR.fts rfl rfl)]
  · decide
  · decide

def confR : Obj MV := ⟨[[.s "X", .n 5]], axN ["p2"], axN ["f3", "f5"]⟩

/-- C19 violated. A refused merge on point names leaves the object with the point names as an
additional first column of the data. -/
theorem C19_refused_merge_violated :
    let r := exL.merge mvVals mvLe confR .left .union none
    r.2 = .error .InvalidArgumentValue ∧
    r.1.data = [[.s "p1", .s "a", .n 1, .nan], [.s "p2", .s "b", .n 2, .s "Y"]] ∧ r.1.fts.len = 3 ∧
    ¬ r.1.WF := by
  refine ⟨by decide, by decide, by decide, ?_⟩
  intro h
  have := h.cols [.s "p1", .s "a", .n 1, .nan] (by decide)
  revert this
  decide

def emptyR : Obj MV := ⟨[], axN [], axN ["f3", "f5"]⟩

/-- C19 violated. Merging with an object without points (which has nothing to add) raises an
IndexError. -/
theorem C19_empty_violated :
    (exL.merge mvVals mvLe emptyR .left .union none).2 = .error .IndexError ∧
    (emptyR.merge mvVals mvLe exR .union .union none).2 = .error .IndexError := by
  decide

def idxL : Obj MV := ⟨[[.n 3, .s "c"], [.n 1, .s "a"]], ⟨2, none⟩, axN ["id", "k"]⟩
def idxR : Obj MV := ⟨[[.n 2, .s "b"]], ⟨1, none⟩, axN ["id", "k"]⟩
def idx1L : Obj MV := ⟨[[.s "c", .n 3]], ⟨1, none⟩, axN ["a", "id"]⟩
def idx1R : Obj MV := ⟨[[.s "b", .n 2]], ⟨1, none⟩, axN ["b", "id"]⟩

/-- C19 violated. `point='union'` sorts by the feature merged on, but not when it is given by the
index 0; and the index is used for sorting after the features have changed: an index which was valid
raises an IndexError when `feature='intersection'` has removed features. -/
theorem C19_sort_index_violated :
    (idxL.merge mvVals mvLe idxR .union .union (some (.index 0))).1.data
      = [[.n 3, .s "c"], [.n 1, .s "a"], [.n 2, .s "b"]] ∧
    (idxL.merge mvVals mvLe idxR .union .union (some (.index 0))).2 = .ok () ∧
    (idx1L.merge mvVals mvLe idx1R .union .intersection (some (.index 1))).2 = .error .IndexError := by
  decide

end Nimble
