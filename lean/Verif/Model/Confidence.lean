import Mathlib.Data.Real.Sqrt

/-!
# Confidence intervals of the errors of predictions (calculate/confidence.py)

Numbers are real numbers, `none` is nan.  The objects have one feature and are given by their values
(`fractionIncorrect…` also for other shapes).  `ppf p d` is `scipy.stats.t.ppf`, the quantile function of
Student's distribution with `d` degrees of freedom.
-/

namespace Nimble
namespace Confidence

/-- The values which are not missing. -/
def known (vs : List (Option ℝ)) : List ℝ := vs.filterMap id

/-- `np.nanmean` (statistic.py:209-210). -/
noncomputable def nanMean (vs : List (Option ℝ)) : Option ℝ :=
  if known vs = [] then none else some ((known vs).sum / (known vs).length)

/-- `np.sqrt`. -/
noncomputable def npSqrt (x : ℝ) : Option ℝ := if x < 0 then none else some (Real.sqrt x)

/-- `standardDeviation(values)`: `np.sqrt` of `np.nanvar` with `ddof=1` (statistic.py:331-334, 362). -/
noncomputable def sampleSd (vs : List (Option ℝ)) : Option ℝ :=
  if (known vs).length ≤ 1 then none
  else npSqrt (((known vs).map (fun x => (x - (known vs).sum / (known vs).length) ^ 2)).sum /
    ((known vs).length - 1))

/-- `halfConfidence` (confidence.py:38). -/
noncomputable def halfConfidence (confidence : ℝ) : ℝ := 1 - (1 - confidence) / 2

/-- `_confidenceIntervalHelper` (confidence.py:27-47) for numbers and no `transform`; the number of degrees
of freedom is `sampleSize - 1`. -/
noncomputable def bounds (ppf : ℝ → Nat → ℝ) (mean sd : ℝ) (sampleSize : Nat) (confidence : ℝ) : ℝ × ℝ :=
  let boundary := ppf (halfConfidence confidence) (sampleSize - 1)
  let sqrtN := Real.sqrt sampleSize
  (mean - boundary * (sd / sqrtN), mean + boundary * (sd / sqrtN))

/-- `_confidenceIntervalHelper` with `transform` (confidence.py:44-45). -/
noncomputable def helper (ppf : ℝ → Nat → ℝ) (mean sd : Option ℝ) (sampleSize : Nat) (confidence : ℝ)
    (transform : ℝ → Option ℝ) : Option ℝ × Option ℝ :=
  match mean, sd with
  | some m, some s =>
    (transform (bounds ppf m s sampleSize confidence).1, transform (bounds ppf m s sampleSize confidence).2)
  | _, _ => (none, none)

/-- An operation on two values, which is missing if one of them is. -/
def lift2 (f : ℝ → ℝ → ℝ) : Option ℝ → Option ℝ → Option ℝ
  | some a, some b => some (f a b)
  | _, _ => none

/-- `rootMeanSquareErrorConfidenceInterval` (confidence.py:49-64). -/
noncomputable def rmseInterval (ppf : ℝ → Nat → ℝ) (kn pred : List (Option ℝ)) (confidence : ℝ) :
    Option ℝ × Option ℝ :=
  let errors := List.zipWith (lift2 (fun a b => (a - b) ^ 2)) kn pred
  helper ppf (nanMean errors) (sampleSd errors) errors.length confidence npSqrt

/-- `meanAbsoluteErrorConfidenceInterval` (confidence.py:66-81). -/
noncomputable def maeInterval (ppf : ℝ → Nat → ℝ) (kn pred : List (Option ℝ)) (confidence : ℝ) :
    Option ℝ × Option ℝ :=
  let errors := List.zipWith (lift2 (fun a b => |a - b|)) kn pred
  helper ppf (nanMean errors) (sampleSd errors) errors.length confidence some

/-- `!=` of two numpy numbers: nan is different from everything. -/
noncomputable def npNe : Option ℝ → Option ℝ → Bool
  | some a, some b => decide (a ≠ b)
  | _, _ => true

/-- `fractionIncorrectConfidenceInterval` (confidence.py:89-99) from the comparisons, `len` is the number of
points of the comparison. -/
noncomputable def fractionBounds (ppf : ℝ → Nat → ℝ) (errors : List Bool) (len : Nat) (confidence : ℝ) : ℝ × ℝ :=
  let frac : ℝ := (errors.countP id : Nat) / (errors.length : Nat)
  bounds ppf frac (Real.sqrt (frac * (1 - frac))) len confidence

/-- `fractionIncorrectConfidenceInterval` (confidence.py:83-99) for two objects of one feature and the
same number of points. -/
noncomputable def fractionInterval (ppf : ℝ → Nat → ℝ) (kn pred : List (Option ℝ)) (confidence : ℝ) : ℝ × ℝ :=
  fractionBounds ppf (List.zipWith npNe kn pred) (List.zipWith npNe kn pred).length confidence

/-- The same if `known` has one feature and `predicted` one point: numpy compares every value with every
value (confidence.py:93). -/
noncomputable def fractionIntervalCross (ppf : ℝ → Nat → ℝ) (kn pred : List (Option ℝ)) (confidence : ℝ) : ℝ × ℝ :=
  fractionBounds ppf (kn.flatMap (fun a => pred.map (npNe a))) kn.length confidence

end Confidence
end Nimble
