import Verif.Py

/-!
# Multi-class strategies

`OneVsAll` and `OneVsOne` (universal_interface.py:199-281, 1800-1948) with the helpers of
_interface_helpers.py.  What a learner does is abstract: a binary problem is given by its training data,
and its outcome on a test point by a label or a score.
-/

namespace Nimble.MultiClass

variable {α : Type}

/-! ### Choosing the strategy -/

/-- What `train` does. -/
inductive Strategy where
  | default | oneVsAll | oneVsOne
  deriving DecidableEq, Repr

/-- `_validMultiClassStrategy` (_learnHelpers.py:636-646) with `str.lower`. -/
def validStrategy (lower : String → String) : Option String → Res Unit
  | none => .ok ()
  | some s =>
    if lower s = "default" ∨ lower s = "onevsall" ∨ lower s = "onevsone" then .ok ()
    else .error .InvalidArgumentValue

/-- The tests in `train` (universal_interface.py:199-244). -/
def chooseStrategy : Option String → Strategy
  | none => .default
  | some s =>
    if s ≠ "default" then
      if s = "OneVsAll" then .oneVsAll
      else if s = "OneVsOne" then .oneVsOne
      else .default
    else .default

/-! ### Training -/

/-- The labels of the binary problem of one label (universal_interface.py:227-233). -/
def relabel [DecidableEq α] (label : α) (ys : List α) : List Nat :=
  ys.map (fun v => if v = label then 1 else 0)

/-- `generateAllPairs` (_interface_helpers.py:552-570): each item with each later one. -/
def allPairs : List α → List (α × α)
  | [] => []
  | a :: l => l.map (fun b => (a, b)) ++ allPairs l

/-- A point belongs to a pair (universal_interface.py:269): the value in the feature `c` is one of the two
labels. -/
def inPair [DecidableEq α] (c : Nat) (pair : α × α) (row : List α) : Bool :=
  decide (row[c]? = some pair.1 ∨ row[c]? = some pair.2)

/-- `features.extract(trainY)` (universal_interface.py:270): what is left of a point. -/
def without (c : Nat) (row : List α) : List α := row.eraseIdx c

/-- The label, appended as the last feature (universal_interface.py:278). -/
def labelLast (c : Nat) (row : List α) : List α := row.eraseIdx c ++ (row[c]?).toList

/-- The points extracted for a pair, appended again (universal_interface.py:278-279).  If all features
have names, `points.append` brings the features into the order of the caller (axis.py:1456-1480), which is
the order before; features without names stay in the order they are in. -/
def putBack (named : Bool) (c : Nat) (sel : List (List α)) : List (List α) :=
  if named then sel else sel.map (labelLast c)

/-- The loop over the pairs (universal_interface.py:263-279): the training data (points without the label,
labels) of each binary problem. -/
def trainPairs [DecidableEq α] (named : Bool) (c : Nat) :
    List (List α) → List (α × α) → List (List (List α) × List (Option α))
  | _, [] => []
  | rows, pair :: pairs =>
    let sel := rows.filter (inPair c pair)
    let rest := rows.filter (fun r => ! inPair c pair r)
    (sel.map (without c), sel.map (fun r => r[c]?)) :: trainPairs named c (rest ++ putBack named c sel) pairs

/-! ### One against all -/

/-- A float. -/
inductive Score where
  | nan | negInf | fin (q : Rat) | posInf
  deriving DecidableEq

/-- `a > b`. -/
def Score.gt : Score → Score → Bool
  | .nan, _ => false
  | _, .nan => false
  | .negInf, _ => false
  | _, .posInf => false
  | .posInf, _ => true
  | .fin _, .negInf => true
  | .fin a, .fin b => decide (b < a)

/-- The loop of `extractWinningPredictionIndex` (_interface_helpers.py:611-616). -/
def winLoop : List Score → Nat → Score → Option Nat → Option Nat
  | [], _, _, best => best
  | s :: l, i, mx, best => if s.gt mx then winLoop l (i + 1) s (some i) else winLoop l (i + 1) mx best

/-- `extractWinningPredictionIndex` (_interface_helpers.py:604-621). -/
def winningIndex (scores : List Score) : Option Nat := winLoop scores 0 .negInf none

/-- The label of a point, `scoreMode=None` (universal_interface.py:1825-1836).  Without a score above
-inf there is no index (an error). -/
def oneVsAllLabel (labels : List α) (scores : List Score) : Option α :=
  (winningIndex scores).bind (fun i => labels[i]?)

/-- `d[k] = v` of a dictionary in the order of insertion. -/
def dictSet {κ β : Type} [DecidableEq κ] (k : κ) (v : β) : List (κ × β) → List (κ × β)
  | [] => [(k, v)]
  | (k', v') :: d => if k' = k then (k', v) :: d else (k', v') :: dictSet k v d

def dictGet {κ β : Type} [DecidableEq κ] (k : κ) : List (κ × β) → Option β
  | [] => none
  | (k', v') :: d => if k' = k then some v' else dictGet k d

/-- `extractConfidenceScores` (_interface_helpers.py:646-660) for a point with at least one score. -/
def confidenceScores {κ : Type} [DecidableEq κ] (names : List κ) (scores : List Score) : List (κ × Score) :=
  (names.zip scores).foldl (fun d p => dictSet p.1 p.2 d) []

/-- The loop of `extractWinningPredictionIndexAndScore` (_interface_helpers.py:636-642). -/
def bestLoop {κ : Type} : List (κ × Score) → Score → Option κ → Option κ × Score
  | [], best, label => (label, best)
  | (k, v) :: d, best, label => if v.gt best then bestLoop d v (some k) else bestLoop d best label

/-- `scoreMode='bestScore'` (universal_interface.py:1838-1849, _interface_helpers.py:624-643). -/
def oneVsAllBest {κ : Type} [DecidableEq κ] (names : List κ) (scores : List Score) : Option κ × Score :=
  bestLoop (confidenceScores names scores) .negInf none

/-- `finalRow[labelIndexDict[label]] = score` for all labels (universal_interface.py:1869-1876,
1934-1938): `headers` without duplicates. -/
def fillRow {κ β : Type} [DecidableEq κ] (headers : List κ) : List (κ × β) → List β → Res (List β)
  | [], row => .ok row
  | (k, v) :: d, row =>
    if k ∈ headers then fillRow headers d (row.set (headers.idxOf k) v) else .error .KeyError

/-- `scoreMode='allScores'` (universal_interface.py:1857-1877): the row of a point, with the feature names
`headers`, the texts of the labels sorted. -/
def oneVsAllScores {κ : Type} [DecidableEq κ] (le : κ → κ → Bool) (names : List κ) (scores : List Score) :
    List κ × Res (List Score) :=
  let headers := names.mergeSort le
  (headers, fillRow headers (confidenceScores names scores) (headers.map (fun _ => .fin 0)))

/-! ### One against one -/

/-- `countWins` (_interface_helpers.py:573-586). -/
def countWins [DecidableEq α] (predictions : List α) : List (α × Nat) :=
  predictions.foldl (fun d p => dictSet p ((dictGet p d).getD 0 + 1) d) []

/-- `max(keys, key=...)`: the first key with the largest count. -/
def maxKey : List (α × Nat) → Option α
  | [] => none
  | (k, n) :: d => some (go d k n)
where
  go : List (α × Nat) → α → Nat → α
    | [], k, _ => k
    | (k', n') :: d, k, n => if n' > n then go d k' n' else go d k n

/-- `extractWinningPredictionLabel` (_interface_helpers.py:589-601), `scoreMode=None`. -/
def oneVsOneLabel [DecidableEq α] (predictions : List α) : Option α := maxKey (countWins predictions)

/-- `scoreMode='bestScore'` (universal_interface.py:1915-1919): `sorted(..., reverse=True)` keeps the order
of equal counts. -/
def oneVsOneBest [DecidableEq α] (predictions : List α) : Option (α × Nat) :=
  ((countWins predictions).mergeSort (fun a b => decide (b.2 ≤ a.2))).head?

/-- `str(float(label))` of all labels; `ValueError` for a text. -/
def floatNames {κ : Type} (name : α → Option κ) : List α → Res (List κ)
  | [] => .ok []
  | a :: l =>
    match name a with
    | none => .error .ValueError
    | some k => do
      let r ← floatNames name l
      return k :: r

/-- The pairs (name of the label, number of wins). -/
def namedWins {κ : Type} (name : α → Option κ) : List (α × Nat) → Res (List (κ × Nat))
  | [] => .ok []
  | (a, n) :: l =>
    match name a with
    | none => .error .ValueError
    | some k => do
      let r ← namedWins name l
      return (k, n) :: r

/-- `scoreMode='allScores'` (universal_interface.py:1927-1939): the feature names and the row of a
point. -/
def oneVsOneScores {κ : Type} [DecidableEq α] [DecidableEq κ] (le : κ → κ → Bool) (name : α → Option κ)
    (labels predictions : List α) : Res (List κ × List Nat) := do
  let names ← floatNames name labels
  let headers := names.mergeSort le
  let wins ← namedWins name (countWins predictions)
  let row ← fillRow headers wins (headers.map (fun _ => 0))
  return (headers, row)

/-! ### Scores of a learner which itself decides pairwise -/

/-- The position of the pair `(i, j)`, `i < j`, of `n` labels (_interface_helpers.py:334-335). -/
def pairPosition (n i j : Nat) : Nat := (i * n - i * (i + 1) / 2) + (j - (i + 1))

/-- `IndexError` if there is no such value. -/
def getScore (scores : List Rat) (k : Nat) : Res Rat :=
  match scores[k]? with
  | some v => .ok v
  | none => .error .IndexError

/-- `valueFromOneVOneData` (_interface_helpers.py:322-340). -/
def pairValue (scores : List Rat) (pos neg n : Nat) : Res (Option Rat) :=
  if pos = neg then .ok none
  else if neg < pos then do
    let v ← getScore scores (pairPosition n neg pos)
    return some (0 - v)
  else do
    let v ← getScore scores (pairPosition n pos neg)
    return some v

/-- `score is not None and score > 0`. -/
def isWin : Option Rat → Bool
  | some v => decide (0 < v)
  | none => false

/-- The inner loop (_interface_helpers.py:311-315). -/
def winsOf (scores : List Rat) (i n : Nat) : List Nat → Res Nat
  | [] => .ok 0
  | j :: js => do
    let v ← pairValue scores i j n
    let r ← winsOf scores i n js
    return (if isWin v then 1 else 0) + r

/-- `float(wins) / (numLabels - 1)`. -/
def winRatio (w n : Nat) : Res Rat :=
  if n = 1 then .error .ZeroDivisionError else .ok ((w : Rat) / ((n : Rat) - 1))

def ratioLoop (scores : List Rat) (n : Nat) : List Nat → Res (List Rat)
  | [] => .ok []
  | i :: is => do
    let w ← winsOf scores i n (List.range n)
    let x ← winRatio w n
    let r ← ratioLoop scores n is
    return x :: r

/-- `calculateSingleLabelScoresFromOneVsOneScores` (_interface_helpers.py:301-319). -/
def labelRatios (scores : List Rat) (n : Nat) : Res (List Rat) := ratioLoop scores n (List.range n)

/-- `_formatScoresToOvA` (universal_interface.py:1562-1600) of one point, unless there are three scores:
the scores per label. -/
def formatScores (n : Nat) (scores : List Rat) : Res (List Rat) :=
  match scores with
  | [s] => if n = 2 then .ok [-s, s] else if scores.length = n then .ok scores else labelRatios scores n
  | _ => if scores.length = n then .ok scores else labelRatios scores n

end Nimble.MultiClass
