import Verif.Model.Obj
import Verif.Model.MultiClass
import Mathlib.Data.List.Dedup

/-!
# `TrainedLearner.apply` and `getScores` with a score mode
(`nimble/core/interfaces/universal_interface.py:1239-1306, 1562-1666`, `custom_learner.py:131-175`)

The learner proper is a parameter (`Backend`): what its `apply` and `getScores` return for the test data, as a
width and rows without names. Labels have an order `le` and a string `str`.
-/

namespace Nimble.Scores

open Nimble.MultiClass

variable {X L : Type}

/-- An element of the result: a predicted label or a score. -/
inductive Out (L : Type) where
  | label (l : L)
  | score (q : Rat)
  deriving DecidableEq

/-- The learner proper; `strategy` is the outcome of the test whether its scores are one-vs-all, made if there are
three labels or three scores (universal_interface.py:1582-1587). -/
structure Backend (X L : Type) where
  apply : Obj X → Res (Nat × List (List L))
  scores : Obj X → Res (Nat × List (List Rat))
  strategy : Res Bool

/-- The attributes of the trained learner (universal_interface.py:969-979) used here: `named` says that it is a
classification or regression learner, `labels` is `_getScoresOrder` (custom_learner.py:131-136,
scikit_learn_interface.py:191-192). -/
structure TState (L : Type) where
  named : Bool
  twoD : Bool
  shape : Nat × Nat
  yNames : Option (List (Option String))
  labels : List L
  deriving DecidableEq

/-- `np.unique`. -/
def npUnique [DecidableEq L] (le : L → L → Bool) (l : List L) : List L := l.dedup.mergeSort le

/-- Training data as far as it matters here: the labels, the names of the label features, the shape of trainX. -/
structure Train (L : Type) where
  ys : List L
  yNames : Option (List (Option String))
  shape : Nat × Nat
  deriving DecidableEq

/-- `train` of a classification learner (universal_interface.py:293-312, custom_learner.py:153-164,
scikit_learn_interface.py:203-211); one label feature. -/
def trained [DecidableEq L] (le : L → L → Bool) (d : Train L) : TState L :=
  ⟨true, false, d.shape, d.yNames, npUnique le d.ys⟩

/-- A call on the trained learner; `ok` says whether the learner's own method succeeds. -/
inductive TOp (L : Type) where
  | retrain (d : Train L) (ok : Bool)
  | incremental (d : Train L) (ok : Bool)
  deriving DecidableEq

/-- `retrain` (universal_interface.py:1464-1478: the names of the labels are not stored again) and
`incrementalTrain` (custom_learner.py:166-175: the labels are added before the learner's own method runs). -/
def step [DecidableEq L] (le : L → L → Bool) (s : TState L) : TOp L → TState L
  | .retrain d true => { s with labels := npUnique le d.ys, shape := d.shape }
  | .retrain _ false => s
  | .incremental d _ => { s with labels := npUnique le (s.labels ++ d.ys) }

/-- A history of calls. -/
def runOps [DecidableEq L] (le : L → L → Bool) (s : TState L) (ops : List (TOp L)) : TState L :=
  ops.foldl (step le) s

/-- `_validTestData` (universal_interface.py:1647-1666). -/
def validTest (s : TState L) (t : Obj X) : Res Unit :=
  if s.shape.2 = t.fts.len then .ok ()
  else if s.shape.1 = s.shape.2 ∧ t.pts.len = t.fts.len then .ok ()
  else .error .InvalidArgumentValueCombination

/-- Whether the scores are one-vs-all (universal_interface.py:1582-1587, _interface_helpers.py:224-225). -/
def isOva (b : Backend X L) (n m : Nat) : Res Bool :=
  if n ≠ 3 ∧ m ≠ 3 then .ok (decide (m = n)) else b.strategy

/-- `calculateSingleLabelScoresFromOneVsOneScores` for all points (universal_interface.py:1591-1597). -/
def ratioRows (n : Nat) : List (List Rat) → Res (List (List Rat))
  | [] => .ok []
  | r :: rs => do
    let x ← labelRatios r n
    let xs ← ratioRows n rs
    return x :: xs

/-- `_formatScoresToOvA` (universal_interface.py:1562-1600); `generateBinaryScoresFromHigherSortedLabelScores`
gives the scores -s and s. -/
def formatAll (b : Backend X L) (n m : Nat) (rows : List (List Rat)) : Res (Nat × List (List Rat)) :=
  if n = 2 ∧ m = 1 then .ok (2, rows.map (fun r => r.flatMap (fun s => [-s, s])))
  else do
    let ova ← isOva b n m
    if ova then .ok (m, rows) else do
      let rs ← ratioRows n rows
      return (n, rs)

/-- `sortOrder` (universal_interface.py:1635-1640). -/
def sortOrder [DecidableEq L] (le : L → L → Bool) (labels : List L) : List Nat :=
  labels.map (fun l => (labels.mergeSort le).idxOf l)

/-- `features.permute(order)`: the j-th feature is the `order[j]`-th one before. -/
def permuteRow (order : List Nat) (r : List Rat) : List Rat := order.map (fun j => (r[j]?).getD 0)

/-- The scores in the natural order of the labels (universal_interface.py:1630-1644). -/
def natural [DecidableEq L] (le : L → L → Bool) (labels : List L) (p : Nat × List (List Rat)) :
    Res (Nat × List (List Rat)) :=
  if labels.mergeSort le = labels then .ok p
  else if p.1 ≠ labels.length then .error .InvalidArgumentValue
  else .ok (p.1, p.2.map (permuteRow (sortOrder le labels)))

/-- `getScores` (universal_interface.py:1603-1644). -/
def getScores [DecidableEq L] (le : L → L → Bool) (s : TState L) (b : Backend X L) (t : Obj X) :
    Res (Nat × List (List Rat)) := do
  validTest s t
  let raw ← b.scores t
  let f ← formatAll b s.labels.length raw.1 raw.2
  natural le s.labels f

/-- The argument of `setNames`. -/
def toAssign : Option (List (Option String)) → Assign
  | none => .none
  | some l => .list l

/-- The names of the points, and the result (universal_interface.py:1297-1299). -/
def finish (t : Obj X) (rows : List (List (Out L))) (fts : AxisSt) : Res (Obj (Out L)) :=
  if t.pts.len = rows.length then do
    let pts ← AxisSt.setNames ⟨rows.length, none⟩ (toAssign t.pts.getNamesNoGen)
    return ⟨rows, pts, fts⟩
  else .ok ⟨rows, ⟨rows.length, none⟩, fts⟩

/-- Naming of the features if it applies (universal_interface.py:1269). -/
def nameFts (named : Bool) (w : Nat) (a : Assign) : Res AxisSt :=
  if named then AxisSt.setNames ⟨w, none⟩ a else .ok ⟨w, none⟩

/-- `scoreMode=None` (universal_interface.py:1259-1273). -/
def applyLabels (s : TState L) (b : Backend X L) (t : Obj X) : Res (Obj (Out L)) := do
  let p ← b.apply t
  let fts ← nameFts s.named p.1 (toAssign s.yNames)
  finish t (p.2.map (fun r => r.map Out.label)) fts

/-- `scoreMode='allScores'` (universal_interface.py:1274-1278). -/
def applyAll [DecidableEq L] (le : L → L → Bool) (str : L → String) (s : TState L) (b : Backend X L) (t : Obj X) :
    Res (Obj (Out L)) := do
  let p ← getScores le s b t
  let fts ← nameFts s.named p.1 (.list (s.labels.map (fun l => some (str l))))
  finish t (p.2.map (fun r => r.map Out.score)) fts

/-- `row[scoreOrder.index(row[-1])]` (universal_interface.py:1285); with fewer scores than labels the code would
take a predicted label for a score, here that is an error. -/
def bestOf [DecidableEq L] (labels : List L) (scores : List Rat) (pred : List L) : Res Rat :=
  match pred.getLast? with
  | none => .error .IndexError
  | some l => if l ∈ labels then getScore scores (labels.idxOf l) else .error .ValueError

/-- `scores.points.calculate` (universal_interface.py:1284-1286) and the append: the predictions of each point
with its score. -/
def bestRows [DecidableEq L] (labels : List L) : List (List Rat) → List (List L) → Res (List (List (Out L)))
  | sc :: scs, p :: ps => do
    let q ← bestOf labels sc p
    let rest ← bestRows labels scs ps
    return (p.map Out.label ++ [Out.score q]) :: rest
  | [], [] => .ok []
  | _, _ => .error .InvalidArgumentValue

/-- The feature names with `'bestScore'` (universal_interface.py:1289-1292). -/
def bestNames (s : TState L) (w : Nat) : Res AxisSt :=
  match s.yNames with
  | none => .ok ⟨w, none⟩
  | some l => nameFts s.named w (.list (l ++ [some "bestScore"]))

/-- `scoreMode='bestScore'` (universal_interface.py:1279-1292); `calculate` refuses an object without points
(axis.py:533-535). -/
def applyBest [DecidableEq L] (le : L → L → Bool) (s : TState L) (b : Backend X L) (t : Obj X) :
    Res (Obj (Out L)) := do
  let sc ← getScores le s b t
  let p ← b.apply t
  if sc.2 = [] then .error .ImproperObjectAction else do
    let rows ← bestRows s.labels sc.2 p.2
    let fts ← bestNames s (p.1 + 1)
    finish t rows fts

/-- `str.lower` for ASCII. -/
def lower (m : String) : String := String.ofList (m.toList.map Char.toLower)

/-- `_validScoreMode` and `_2dOutputFlagCheck` (_learnHelpers.py:625-633, 649-672). -/
def checkMode (s : TState L) : Option String → Res Unit
  | none => .ok ()
  | some m =>
    if ¬ (lower m = "bestscore" ∨ lower m = "allscores") then .error .InvalidArgumentValue
    else if s.twoD then .error .InvalidArgumentValueCombination
    else .ok ()

/-- The branches on `scoreMode` (universal_interface.py:1256-1295), with the comparisons as written; the last one
computes the scores and the labels before it raises. -/
def applyMode [DecidableEq L] (le : L → L → Bool) (str : L → String) (s : TState L) (b : Backend X L) (t : Obj X) :
    Option String → Res (Obj (Out L))
  | none => applyLabels s b t
  | some m =>
    if m = "allScores" then applyAll le str s b t
    else if m = "bestScore" then applyBest le s b t
    else do
      let _ ← getScores le s b t
      let _ ← b.apply t
      .error .InvalidArgumentValue

/-- `apply` (universal_interface.py:1239-1306) called by the user. -/
def apply [DecidableEq L] (le : L → L → Bool) (str : L → String) (s : TState L) (b : Backend X L) (t : Obj X)
    (mode : Option String) : Res (Obj (Out L)) := do
  checkMode s mode
  validTest s t
  applyMode le str s b t mode

end Nimble.Scores
