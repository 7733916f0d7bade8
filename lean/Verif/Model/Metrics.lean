import Verif.Model.Obj
import Mathlib.Data.List.Sort
import Mathlib.Data.Rat.Defs

/-!
# Confusion matrix and the metrics based on it
(calculate/similarity.py:125-374, calculate/loss.py:33-122, calculate/binary.py,
calculate/utility.py:352-539)

Counts and quotients are exact (rational numbers, no rounding).
-/

namespace Nimble

/-- What the confusion matrix needs to know about a label.  Labels comparing equal in Python (1, 1.0
and True) are the same element of `V`; no label is missing. -/
structure LabelVals (V : Type) where
  /-- `int(val)` when `val % 1 == 0` (similarity.py:290-293). -/
  toInt : V → Option Int
  /-- `val % 1` raises a `ValueError`: for a string this is Python formatting, and a string like
  `'50%'` is an incomplete format (similarity.py:291-295 catches only `TypeError`). -/
  badMod : V → Bool
  /-- `str(_mapInt(val))`. -/
  str : V → String
  /-- The order of `sorted`; labels which cannot be compared (`TypeError`) are not modelled. -/
  le : V → V → Bool

/-- The argument `labels` of `confusionMatrix`: none, a list or a dict; the new labels as strings. -/
inductive LabelArg (V : Type) where
  | none
  | list (l : List String)
  | dict (d : PyDict V String)

section
variable {V : Type} [DecidableEq V]

/-- `np.zeros((n, n), dtype=int)`. -/
def cmZeros (n : Nat) : List (List Nat) := List.replicate n (List.replicate n 0)

/-- `toFill[i, j] = c`. -/
def cmSet (m : List (List Nat)) (i j c : Nat) : List (List Nat) := m.modify i (fun r => r.set j c)

/-- `toFill[i, j] += 1`. -/
def cmInc (m : List (List Nat)) (i j : Nat) : List (List Nat) :=
  m.modify i (fun r => r.modify j (· + 1))

/-- `sorted(...)`. -/
def pySorted (le : V → V → Bool) (l : List V) : List V := l.insertionSort (fun a b => le a b = true)

/-- The counts of the pairs (known, predicted) (similarity.py:352-360). -/
def countPairs (d : PyDict (V × V) Nat) : List (V × V) → PyDict (V × V) Nat
  | [] => d
  | x :: xs => countPairs (PyDict.set d x ((PyDict.get? d x).getD 0 + 1)) xs

/-- The matrix is filled from the counts (similarity.py:367-372); `list.index` raises `ValueError`.
The cache `labelsIdx` does not change the result. -/
def fillCounts (labels : List V) : List ((V × V) × Nat) → List (List Nat) → Res (List (List Nat))
  | [], m => .ok m
  | (kp, c) :: rest, m =>
    match labels.idxOf? kp.1, labels.idxOf? kp.2 with
    | some j, some i => fillCounts labels rest (cmSet m i j c)
    | _, _ => .error .ValueError

/-- `_confusionMatrixNoLabels` (similarity.py:351-374). -/
def cmNoLabels (lv : LabelVals V) (known pred : List V) : Res (List (List Nat) × List String) :=
  if known.any lv.badMod then .error .ValueError
  else do
    let labels := pySorted lv.le known.dedup
    let m ← fillCounts labels (countPairs [] (known.zip pred)) (cmZeros labels.length)
    return (m, labels.map lv.str)

/-- `_mapInt` and `_validateIndex` (similarity.py:286-308). -/
def labelIndex (lv : LabelVals V) (n : Nat) (v : V) : Res Nat :=
  if lv.badMod v then .error .ValueError
  else match lv.toInt v with
    | none => .error .InvalidArgumentValue
    | some k => if 0 ≤ k ∧ k < n then .ok k.toNat else .error .IndexError

/-- The loop of `_confusionMatrixWithLabelsList` (similarity.py:314-323).  The set `validLabels` only
avoids repeated validation. -/
def fillList (lv : LabelVals V) (n : Nat) : List (V × V) → List (List Nat) → Res (List (List Nat))
  | [], m => .ok m
  | kp :: rest, m => do
    let k ← labelIndex lv n kp.1
    let p ← labelIndex lv n kp.2
    fillList lv n rest (cmInc m p k)

/-- The loop of `_confusionMatrixWithLabelsDict` (similarity.py:337-345). -/
def fillDict (keys : List V) : List (V × V) → List (List Nat) → Res (List (List Nat))
  | [], m => .ok m
  | kp :: rest, m =>
    match keys.idxOf? kp.1, keys.idxOf? kp.2 with
    | some j, some i => fillDict keys rest (cmInc m i j)
    | _, _ => .error .KeyError

/-- The counts and the labels for the three kinds of `labels` (similarity.py:261-269, 310-349). -/
def cmCounts (lv : LabelVals V) (known pred : List V) : LabelArg V → Res (List (List Nat) × List String)
  | .none => cmNoLabels lv known pred
  | .list l => do
    let m ← fillList lv l.length (known.zip pred) (cmZeros l.length)
    return (m, l)
  | .dict d => do
    let keys := pySorted lv.le d.keys
    let m ← fillDict keys (known.zip pred) (cmZeros keys.length)
    return (m, keys.map (fun k => (PyDict.get? d k).getD ""))

/-- An element of the result (similarity.py:271-272). -/
def cmValue (frac : Bool) (n : Nat) (x : Nat) : ℚ := if frac then (x : ℚ) / (n : ℚ) else (x : ℚ)

/-- `confusionMatrix(known, predicted, labels, convertCountsToFractions)` (similarity.py:146-279).
Dividing by no points gives missing values in Python and 0 here. -/
def confusionMatrix (lv : LabelVals V) (known pred : Obj V) (labels : LabelArg V) (frac : Bool) :
    Res (Obj ℚ) :=
  if ¬ (known.fts.len = 1 ∧ pred.fts.len = 1) then .error .InvalidArgumentValue
  else if known.pts.len ≠ pred.pts.len then .error .InvalidArgumentValue
  else do
    let c ← cmCounts lv known.data.flatten pred.data.flatten labels
    Obj.make (c.1.map (fun r => r.map (cmValue frac known.pts.len)))
      c.2.length c.2.length (some (c.2.map (fun s => some ("predicted_" ++ s))))
      (some (c.2.map (fun s => some ("known_" ++ s))))

/-- The validation of a performance function with the default settings of the decorator
(utility.py:500-533). -/
def perfCheck (missing : V → Bool) (known pred : Obj V) : Res Unit :=
  if known.pts.len = 0 ∨ known.fts.len = 0 ∨ pred.pts.len = 0 ∨ pred.fts.len = 0 then
    .error .InvalidArgumentValue
  else if known.pts.len ≠ pred.pts.len then .error .InvalidArgumentValueCombination
  else if known.fts.len ≠ pred.fts.len then .error .InvalidArgumentValueCombination
  else if pred.fts.len > 1 then .error .InvalidArgumentValue
  else if known.data.any (fun r => r.any missing) then .error .InvalidArgumentValue
  else if pred.data.any (fun r => r.any missing) then .error .InvalidArgumentValue
  else .ok ()

/-- The loop of `_computeError` (loss.py:48-56) for functions of exact numbers; `pred[i, 0]` and
`known[i, 0]` exist when the validation succeeds. -/
def errorLoop (f : V → V → ℚ → ℚ) (known pred : Obj V) : List Nat → ℚ → ℚ
  | [], t => t
  | i :: is, t =>
    match known.elem? i 0, pred.elem? i 0 with
    | some a, some p => errorLoop f known pred is (f a p t)
    | _, _ => errorLoop f known pred is t

/-- `fractionIncorrect` (loss.py:113-122). -/
def fractionIncorrect (missing : V → Bool) (known pred : Obj V) : Res ℚ := do
  perfCheck missing known pred
  return errorLoop (fun x y z => if x = y then z else z + 1) known pred (List.range pred.pts.len) 0
    / pred.pts.len

/-- `fractionCorrect` (similarity.py:127-134). -/
def fractionCorrect (missing : V → Bool) (known pred : Obj V) : Res ℚ := do
  let x ← fractionIncorrect missing known pred
  return 1 - x

/-- `_getBinaryConfusionMatrix` (binary.py:110-128). -/
def binaryMatrix (lv : LabelVals V) (known pred : Obj V) : Res (Obj ℚ) :=
  match confusionMatrix lv known pred (.list ["False", "True"]) false with
  | .error .IndexError => .error .InvalidArgumentValue
  | r => r

end

/-- `confMtx[i, j]` for a matrix which has that element. -/
def cmCell (cm : Obj ℚ) (i j : Nat) : ℚ := (cm.elem? i j).getD 0

/-- `a / b`; `none` for a division by zero, which raises or gives a missing value depending on the
representation of the matrix. -/
def pyDiv (a b : ℚ) : Option ℚ := if b = 0 then none else some (a / b)

/-- `_getKnownPositive` … `_getPredictedNegative` (binary.py:144-154). -/
def cmKnown (cm : Obj ℚ) (j : Nat) : ℚ := (cm.vector .feature j).sum

def cmPredicted (cm : Obj ℚ) (i : Nat) : ℚ := (cm.vector .point i).sum

/-- `_getRecall` (binary.py:156-159). -/
def cmRecall (cm : Obj ℚ) : Option ℚ := pyDiv (cmCell cm 1 1) (cmKnown cm 1)

/-- `_getPrecision` (binary.py:161-165). -/
def cmPrecision (cm : Obj ℚ) : Option ℚ := pyDiv (cmCell cm 1 1) (cmPredicted cm 1)

/-- `_getSpecificity` (binary.py:167-171). -/
def cmSpecificity (cm : Obj ℚ) : Option ℚ := pyDiv (cmCell cm 0 0) (cmKnown cm 0)

/-- `(recall_ + specificity_) / 2` (binary.py:93-97). -/
def cmBalanced (cm : Obj ℚ) : Option ℚ := do
  let r ← cmRecall cm
  let s ← cmSpecificity cm
  return (r + s) / 2

/-- `2 * ((precision_ * recall_) / (precision_ + recall_))` (binary.py:104-108). -/
def cmF1 (cm : Obj ℚ) : Option ℚ := do
  let r ← cmRecall cm
  let p ← cmPrecision cm
  let q ← pyDiv (p * r) (p + r)
  return 2 * q

section
variable {V : Type} [DecidableEq V]

/-- The functions of calculate/binary.py (24-108): validation, matrix, and one of the quantities. -/
inductive BinaryMetric where
  | truePositive | trueNegative | falsePositive | falseNegative
  | recall | precision | specificity | balancedAccuracy | f1Score
  deriving DecidableEq

/-- The quantity computed from the matrix (binary.py:24-108, 132-171). -/
def BinaryMetric.ofMatrix (cm : Obj ℚ) : BinaryMetric → Option ℚ
  | .truePositive => some (cmCell cm 1 1)
  | .trueNegative => some (cmCell cm 0 0)
  | .falsePositive => some (cmCell cm 1 0)
  | .falseNegative => some (cmCell cm 0 1)
  | .recall => cmRecall cm
  | .precision => cmPrecision cm
  | .specificity => cmSpecificity cm
  | .balancedAccuracy => cmBalanced cm
  | .f1Score => cmF1 cm

/-- A call of one of the binary metrics. -/
def binaryMetric (missing : V → Bool) (lv : LabelVals V) (known pred : Obj V) (b : BinaryMetric) :
    Res (Option ℚ) := do
  perfCheck missing known pred
  let cm ← binaryMatrix lv known pred
  return b.ofMatrix cm

end

end Nimble
