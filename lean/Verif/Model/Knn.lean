import Verif.Model.Obj

/-!
# `nimble.KNNClassifier` and `nimble.KNNImputation` (`nimble/learners/knn_*.py`)

Numbers are exact.  `rt` is numpy's square root; only its monotonicity is used.
-/

namespace Nimble.Knn

variable {D L V : Type}

/-- `np.dot` of two points. -/
def dot (a b : List Rat) : Rat := (List.zipWith (· * ·) a b).sum

/-- One entry of the distance matrix (knn_classification.py:104-107). -/
def distance (rt : Rat → D) (test train : List Rat) : D :=
  rt (-2 * dot test train + dot train train + dot test test)

/-- `idxDists[:k]` for any integer `k`. -/
def pyTake {α : Type} (k : Int) (l : List α) : List α :=
  if 0 ≤ k then l.take k.toNat else l.take ((l.length : Int) + k).toNat

/-- Indices of the training points by increasing distance, cut to `k` (knn_classification.py:117-119).
Python's sort is stable. -/
def neighbours (le : D → D → Bool) (k : Int) (dists : List D) : List Nat :=
  pyTake k (Obj.sortOrder le false dists)

/-- `self._trainY[i]` for the neighbours (knn_classification.py:119). -/
def orderedLabels (le : D → D → Bool) (k : Int) (dists : List D) (ys : List L) : List L :=
  (neighbours le k dists).filterMap (ys[·]?)

/-- The votes (knn_classification.py:120-124). -/
def vote [DecidableEq L] (d : PyDict L Nat) (label : L) : PyDict L Nat :=
  if PyDict.has d label then PyDict.set d label ((PyDict.get? d label).getD 0 + 1)
  else PyDict.set d label 1

def votes [DecidableEq L] (labels : List L) : PyDict L Nat := labels.foldl vote []

/-- The loop collecting the labels with the highest count (knn_classification.py:54-60). -/
def bestStep (st : Nat × List L) (p : L × Nat) : Nat × List L :=
  if st.1 < p.2 then (p.2, [p.1])
  else if p.2 = st.1 then (st.1, st.2 ++ [p.1])
  else st

def bestLabels (d : PyDict L Nat) : List L := (d.foldl bestStep (0, [])).2

/-- The prediction for one point (knn_classification.py:61-68).  With several best labels and none of
them found nothing would be appended; here that is an error. -/
def choose [DecidableEq L] (ordered : List L) : Res L :=
  let best := bestLabels (votes ordered)
  if 1 < best.length then
    match ordered.find? (fun l => decide (l ∈ best)) with
    | some l => .ok l
    | none => .error .AssertionError
  else match best[0]? with
    | some l => .ok l
    | none => .error .IndexError

/-- `KNNClassifier.apply` for one test point (knn_classification.py:46-71). -/
def predict [DecidableEq L] (rt : Rat → D) (le : D → D → Bool) (k : Int) (trainX : List (List Rat))
    (trainY : List L) (test : List Rat) : Res L :=
  choose (orderedLabels le k (trainX.map (distance rt test)) trainY)

/-- One point of `getScores` (knn_classification.py:82-91); `labelVals` are the sorted unique labels. -/
def scores [DecidableEq L] (rt : Rat → D) (le : D → D → Bool) (k : Int) (trainX : List (List Rat))
    (trainY : List L) (labelVals : List L) (test : List Rat) : List Nat :=
  let v := votes (orderedLabels le k (trainX.map (distance rt test)) trainY)
  labelVals.map (fun val => if PyDict.has v val then (PyDict.get? v val).getD 0 else 0)

/-! ## Imputation -/

/-- Missing values are `none`; the mask of the training data (knn_imputation.py:65-66). -/
def mask (X : List (List (Option V))) : List (List Bool) := X.map (·.map Option.isNone)

/-- Positions marked (`fillIdx`) and not marked (`keepIdx`) in a point (knn_imputation.py:74-80). -/
def fillIdx (fill : List Bool) : List Nat :=
  (List.range fill.length).filter (fun i => fill[i]?.getD false)

def keepIdx (fill : List Bool) : List Nat :=
  (List.range fill.length).filter (fun i => !(fill[i]?.getD false))

/-- `trainIdx`: points of the training mask without a mark in the given features
(knn_imputation.py:84-85). -/
def trainIdx (M : List (List Bool)) (cols : List Nat) : List Nat :=
  (List.range M.length).filter (fun i => !((pick ((M[i]?).getD []) cols).any id))

/-- `testData[trainIdx, cols]` (knn_imputation.py:86). -/
def trainRows (X : List (List (Option V))) (M : List (List Bool)) (cols : List Nat) :
    List (List (Option V)) :=
  (pick X (trainIdx M cols)).map (fun r => pick r cols)

/-- The value for one marked position: learned from the other points, labels last
(knn_imputation.py:82-91).  `learn` is `nimble.trainAndApply` with the given data. -/
def impute (learn : List (List (Option V)) → List (Option V) → Res (Option V))
    (X : List (List (Option V))) (M : List (List Bool)) (pt : List (Option V)) (fill : List Bool)
    (ft : Nat) : Res (Option V) :=
  learn (trainRows X M (keepIdx fill ++ [ft])) (pick pt (keepIdx fill))

/-- The loop over the marked positions (knn_imputation.py:82-92). -/
def imputeLoop (learn : List (List (Option V)) → List (Option V) → Res (Option V))
    (X : List (List (Option V))) (M : List (List Bool)) (pt : List (Option V)) (fill : List Bool) :
    List Nat → List (Option V) → Res (List (Option V))
  | [], new => .ok new
  | ft :: fts, new => do
    let v ← impute learn X M pt fill ft
    imputeLoop learn X M pt fill fts (new.set ft v)

/-- The loop over the points, zipped with the mask of the training data (knn_imputation.py:71-93). -/
def imputePoints (learn : List (List (Option V)) → List (Option V) → Res (Option V))
    (X : List (List (Option V))) (M : List (List Bool)) :
    List (List (Option V)) → List (List Bool) → Res (List (List (Option V)))
  | pt :: pts, fill :: fills => do
    let new ← imputeLoop learn X M pt fill (fillIdx fill) pt
    let rest ← imputePoints learn X M pts fills
    return new :: rest
  | _, _ => .ok []

/-- `KNNImputation` trained on `trainX`, applied to `testX` (knn_imputation.py:44-99). -/
def imputeApply (learn : List (List (Option V)) → List (Option V) → Res (Option V))
    (trainX testX : List (List (Option V))) : Res (List (List (Option V))) :=
  imputePoints learn testX (mask trainX) testX (mask trainX)

end Nimble.Knn
