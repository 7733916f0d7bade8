import Verif.Model.Obj
import Verif.Model.Insert

/-!
# Cross validation folds

`nimble/core/tune.py:54-338`: fold lists, fold iteration and the cross validation loop.  The
shuffles (`pythonRandom.shuffle`, `numpyRandom.shuffle`) are parameters.
-/

namespace Nimble

/-- `end` for one fold (tune.py:162-166). -/
def foldEnd (minNumInFold numFoldsToAddPoint fold : Nat) : Nat :=
  (fold + 1) * minNumInFold + (if fold < numFoldsToAddPoint then fold + 1 else numFoldsToAddPoint)

/-- The loop making the folds (tune.py:160-167): `todo` folds remain, `fold` is the loop variable
and `start` the previous `end`. -/
def kfoldLoop (indices : List Nat) (m r : Nat) : (fold todo start : Nat) → List (List Nat)
  | _, 0, _ => []
  | fold, todo + 1, start =>
    ((indices.take (foldEnd m r fold)).drop start) ::
      kfoldLoop indices m r (fold + 1) todo (foldEnd m r fold)

/-- `KFoldIterator.makeFoldList` (tune.py:146-169), preceded by the check of `folds` in
`__init__` (139-144).  `shuffled` is what `pythonRandom.shuffle` makes of `list(range(n))`. -/
def kfoldList (shuffled : List Nat) (n : Nat) (folds : Int) : Res (List (List Nat)) :=
  if folds ≤ 0 then .error .InvalidArgumentValue
  else if n / folds.toNat = 0 then .error .InvalidArgumentValueCombination
  else .ok (kfoldLoop shuffled (n / folds.toNat) (n % folds.toNat) 0 folds.toNat 0)

/-- `if k in d: d[k].append(a) else: d[k] = [a]` (tune.py:188-191 and, with `setdefault`/`in`
tests, axis.py:736-741 and base.py:1430-1437). -/
def pushGroup {K A : Type} [DecidableEq K] (d : PyDict K (List A)) (k : K) (a : A) :
    PyDict K (List A) :=
  PyDict.set d k ((PyDict.get? d k).getD [] ++ [a])

/-- The grouping loop. -/
def groupPairs {K A : Type} [DecidableEq K] (l : List (K × A)) : PyDict K (List A) :=
  l.foldl (fun d p => pushGroup d p.1 p.2) []

/-- `GroupFoldIterator.makeFoldList` (tune.py:185-193) for the kept values of the fold feature. -/
def groupFoldList {K : Type} [DecidableEq K] (vals : List K) : List (List Nat) :=
  (groupPairs (vals.zipIdx)).values

/-- `keep` (tune.py:178): positions of the non-missing values. -/
def keepNonMissing {K : Type} (missing : K → Bool) (vals : List K) : List Nat :=
  (vals.zipIdx.filter (fun p => !missing p.1)).map Prod.snd

/-- `FoldIterator.__init__` (tune.py:65-85): the checks on the data list.  (`None` entries are
allowed except in the first position, where the code needs `.points`.) -/
def foldDataCheck {V : Type} : List (Option (Obj V)) → Res Nat
  | [] => .error .InvalidArgumentValue
  | none :: _ => .error .TypeError
  | some d :: rest =>
    if (some d :: rest).any (fun x => x.any (fun o => o.pts.len == 0 || o.pts.len != d.pts.len))
    then .error .InvalidArgumentValueCombination
    else .ok d.pts.len

/-- One entry of `resultsList` (tune.py:115-124): the copy is split by `extract`, the remainder
permuted. -/
def splitOne {V : Type} (samp : List Nat → Nat → List Nat) (fold indices : List Nat) (d : Obj V) :
    Res (Obj V × Obj V) :=
  match d.extract samp .point { target := some (.list (fold.map (fun (i : Nat) => .int i))) } with
  | (_, .error e) => .error e
  | (rest, .ok test) => do
    let train ← rest.permute .point (indices.map (fun (i : Nat) => .int i))
    return (train, test)

/-- An entry that may be `None` (tune.py:116-117). -/
def splitOpt {V : Type} (samp : List Nat → Nat → List Nat) (fold indices : List Nat) :
    Option (Obj V) → Res (Option (Obj V × Obj V))
  | none => .ok none
  | some d => (splitOne samp fold indices d).map some

/-- `FoldIterator.__next__` for one fold (tune.py:90-126): `indices` is the shuffled
`np.arange(len(points) - len(fold))`, the same for every object. -/
def foldSplit {V : Type} (samp : List Nat → Nat → List Nat) (fold indices : List Nat)
    (data : List (Option (Obj V))) : Res (List (Option (Obj V × Obj V))) :=
  data.mapM (splitOpt samp fold indices)

/-- The loop `for fold in self._foldIterator` of `CrossValidator._validate` (tune.py:300-319)
seen from the iterator: `index` is advanced by `__next__` before the body runs, and reset only when
the folds are exhausted (tune.py:91-93, 125).  `body` is everything done with a fold.  Returns the
index left in the iterator and the results. -/
def runFolds {R : Type} (body : List Nat → Res R) :
    (todo : List (List Nat)) → (index : Nat) → Nat × Res (List (List Nat × R))
  | [], _ => (0, .ok [])
  | f :: fs, index =>
    match body f with
    | .error e => (index + 1, .error e)
    | .ok r => match runFolds body fs (index + 1) with
      | (i, .error e) => (i, .error e)
      | (i, .ok rs) => (i, .ok ((f, r) :: rs))

/-- `_validate` on an iterator whose position is `index` (tune.py:286-338). -/
def cvRun {R : Type} (folds : List (List Nat)) (body : List Nat → Res R) (index : Nat) :
    Nat × Res (List (List Nat × R)) :=
  runFolds body (folds.drop index) index

/-- `collectedY`: the first testing labels, then `points.append` of each further one
(tune.py:316-319). -/
def collectY {V : Type} : Obj V → List (Obj V) → Res (Obj V)
  | acc, [] => .ok acc
  | acc, y :: ys => do
    let acc ← acc.insert .point none y
    collectY acc ys

end Nimble
