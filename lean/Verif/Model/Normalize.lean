import Verif.Model.Names
import Mathlib.Data.Rat.Defs
import Mathlib.Data.Real.Sqrt
import Mathlib.Algebra.BigOperators.Group.List.Basic

/-!
# Normalization functions (calculate/normalize.py)

Vectors are lists of exact numbers; `none` is a missing value.  The functions return the normalized
`values1`, and `values2` normalized with the parameters of `values1`.
-/

namespace Nimble

/-- The values which are not missing. -/
def present {A : Type} (vs : List (Option A)) : List A := vs.filterMap id

/-- An arithmetic operation with a number: a missing value stays missing. -/
def mapVals {A : Type} (f : A → A) (vs : List (Option A)) : List (Option A) := vs.map (Option.map f)

/-- `np.nanmin` and `np.nanmax` (statistic.py:142-169); `none` (a missing value) when there is no value. -/
def nanMin (vs : List (Option ℚ)) : Option ℚ :=
  (present vs).foldl (fun m v => some (match m with | none => v | some x => if v < x then v else x)) none

def nanMax (vs : List (Option ℚ)) : Option ℚ :=
  (present vs).foldl (fun m v => some (match m with | none => v | some x => if x < v then v else x)) none

/-- `np.nanmean` (statistic.py:209-210). -/
def nanMean (vs : List (Option ℚ)) : Option ℚ :=
  if present vs = [] then none else some ((present vs).sum / (present vs).length)

/-- All elements missing: what an operation with a missing number gives. -/
def allMissing {A : Type} (vs : List (Option A)) : List (Option A) := vs.map (fun _ => none)

/-- `meanNormalize` (normalize.py:27-70). -/
def meanNormalize (v1 v2 : List (Option ℚ)) : List (Option ℚ) × List (Option ℚ) :=
  match nanMean v1 with
  | none => (allMissing v1, allMissing v2)
  | some m => (mapVals (· - m) v1, mapVals (· - m) v2)

/-- One vector of `rangeNormalize` (normalize.py:130-135, 140-144). -/
def rangeMap (start stop mn spread : ℚ) (vs : List (Option ℚ)) : List (Option ℚ) :=
  let sub := mapVals (· - mn) vs
  let scaled := mapVals (fun x => stop * x - start * x) sub
  let divided := if spread = 0 then scaled else mapVals (· / spread) scaled
  mapVals (· + start) divided

/-- `rangeNormalize(values1, values2, start, end)` (normalize.py:123-146). -/
def rangeNormalize (start stop : ℚ) (v1 v2 : List (Option ℚ)) : List (Option ℚ) × List (Option ℚ) :=
  match nanMin v1, nanMax v1 with
  | some mn, some mx => (rangeMap start stop mn (mx - mn) v1, rangeMap start stop mn (mx - mn) v2)
  | _, _ => (allMissing v1, allMissing v2)

/-- The mean of real numbers. -/
noncomputable def realMean (l : List ℝ) : ℝ := l.sum / l.length

/-- `np.sqrt(np.nanvar(arr))` (statistic.py:332-335, 362). -/
noncomputable def realStd (l : List ℝ) : ℝ :=
  Real.sqrt ((l.map (fun x => (x - realMean l) ^ 2)).sum / l.length)

/-- `meanStandardDeviationNormalize` (normalize.py:72-120), with real numbers. -/
noncomputable def stdNormalize (v1 v2 : List (Option ℝ)) : List (Option ℝ) × List (Option ℝ) :=
  if present v1 = [] then (allMissing v1, allMissing v2)
  else
    let m := realMean (present v1)
    let sd := realStd (present v1)
    if sd = 0 then (mapVals (· - m) v1, mapVals (· - m) v2)
    else (mapVals (· / sd) (mapVals (· - m) v1), mapVals (· / sd) (mapVals (· - m) v2))

/-! ### Percentiles -/

/-- The order of `np.argsort`: missing values last. -/
def nanLe : Option ℚ → Option ℚ → Bool
  | _, none => true
  | none, some _ => false
  | some a, some b => decide (a ≤ b)

/-- What `np.argsort(arr)` returns: an order of the indices sorting the values.  Equal values may come
in any order (the default algorithm is not stable). -/
structure IsArgsort (arr : List (Option ℚ)) (order : List Nat) : Prop where
  perm : order.Perm (List.range arr.length)
  sorted : (order.map (fun i => (arr[i]?).join)).Pairwise (fun a b => nanLe a b = true)

/-- The divisor of epsilon (normalize.py:237-241); it does not depend on how many values are missing. -/
def percDenominator (arr : List (Option ℚ)) : Int :=
  if arr.any Option.isNone then (arr.length : Int) - 2 else (arr.length : Int) - 1

/-- The loop over the sorted indices (normalize.py:242-244). -/
def percLoop (eps : ℚ) : List Nat → Nat → List (Option ℚ) → List (Option ℚ)
  | [], _, p => p
  | idx :: rest, i, p =>
    percLoop eps rest (i + 1) (if (p[idx]?).join.isNone then p else p.set idx (some (i * eps)))

/-- The percentiles of the elements equal to `v`. -/
def samePercs (arr p : List (Option ℚ)) (v : ℚ) : List ℚ :=
  (arr.zip p).filterMap (fun ap => if ap.1 = some v then ap.2 else none)

/-- Equal values get the mean of their percentiles (normalize.py:247-251).  `np.unique` gives each
value once; a missing value is equal to nothing. -/
def percAdjust (arr : List (Option ℚ)) : List ℚ → List (Option ℚ) → List (Option ℚ)
  | [], p => p
  | v :: vs, p =>
    let same := samePercs arr p v
    percAdjust arr vs (if same.length > 1 then
      (arr.zip p).map (fun ap => if ap.1 = some v then some (same.sum / same.length) else ap.2) else p)

/-- The percentiles of `values1` (normalize.py:232-251); `1 / 0` raises a `ZeroDivisionError`. -/
def percentiles (arr : List (Option ℚ)) (order : List Nat) : Res (List (Option ℚ)) :=
  if percDenominator arr = 0 then .error .ZeroDivisionError
  else .ok (percAdjust arr (present arr).dedup
    (percLoop (1 / (percDenominator arr : ℚ)) order 0 arr))

/-- `np.searchsorted(sortedValues, val)`: the number of values before `val` (missing values are last). -/
def searchSorted (sorted : List (Option ℚ)) (val : ℚ) : Nat :=
  sorted.countP (fun x => ! nanLe (some val) x)

/-- `_interpPercentile` for a value which is not missing (normalize.py:280-296); the neighbours exist
for a value between minimum and maximum. -/
def interpPercentile (mn mx : ℚ) (sorted percs : List (Option ℚ)) (val : ℚ) : Option ℚ :=
  if val = mn ∧ mn = mx then some (1 / 2)
  else if val ≤ mn then some 0
  else if mx ≤ val then some 1
  else
    let idx := searchSorted sorted val
    match (sorted[idx - 1]?).join, (sorted[idx]?).join, (percs[idx - 1]?).join, (percs[idx]?).join with
    | some lv, some rv, some lp, some rp =>
      if val = rv then some rp else some (lp + (rp - lp) * ((val - lv) / (rv - lv)))
    | _, _, _, _ => none

/-- `percentileNormalize(values1, values2)` (normalize.py:189-278). -/
def percentileNormalize (v1 v2 : List (Option ℚ)) (order : List Nat) :
    Res (List (Option ℚ) × List (Option ℚ)) := do
  let p ← percentiles v1 order
  let sorted := order.map (fun i => (v1[i]?).join)
  let percs := order.map (fun i => (p[i]?).join)
  match nanMin v1, nanMax v1 with
  | some mn, some mx => return (p, v2.map (fun v => v.bind (interpPercentile mn mx sorted percs)))
  | _, _ => return (p, allMissing v2)

end Nimble
