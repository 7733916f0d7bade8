import Mathlib.Data.Real.Sqrt

/-!
# Numeric performance functions (calculate/loss.py:33-135, calculate/similarity.py:34-43, 125-143)

For two objects of one feature, given by their values, with the same positive number of points and
without missing values (what the decorator checks, utility.py:500-533, is in `perfCheck` of
Model/Metrics.lean).  Numbers are real numbers: no rounding, no overflow.  `none` stands for a
division by zero (an error, infinity or missing value depending on the types of the elements).
-/

namespace Nimble

/-- `'min'` or `'max'`: which values are better (utility.py:479). -/
inductive Optimal where
  | min
  | max
  deriving DecidableEq

/-- `_computeError` (loss.py:33-69): the values of the points, in order, are passed to `loop`. -/
noncomputable def computeError (known pred : List ℝ) (loop : ℝ → ℝ → ℝ → ℝ) (compress : ℝ → ℝ → ℝ) : ℝ :=
  compress ((known.zip pred).foldl (fun z ap => loop ap.1 ap.2 z) 0) pred.length

/-- `rootMeanSquareError` (loss.py:72-81). -/
noncomputable def rmse (known pred : List ℝ) : ℝ :=
  computeError known pred (fun x y z => z + (y - x) ^ 2) (fun x y => Real.sqrt (x / y))

/-- `meanAbsoluteError` (loss.py:102-111). -/
noncomputable def mae (known pred : List ℝ) : ℝ :=
  computeError known pred (fun x y z => z + |y - x|) (fun x y => x / y)

/-- `fractionIncorrect` (loss.py:113-122). -/
noncomputable def fracIncorrect (known pred : List ℝ) : ℝ :=
  computeError known pred (fun x y z => if x = y then z else z + 1) (fun x y => x / y)

/-- The product of a row and a column, `a.T.matrixMultiply(b)[0, 0]` for two features. -/
noncomputable def dotList (a b : List ℝ) : ℝ := (List.zipWith (· * ·) a b).sum

/-- `np.nanvar` without missing values: the mean squared distance from the mean (statistic.py:335). -/
noncomputable def populationVariance (a : List ℝ) : ℝ :=
  (a.map (fun x => (x - a.sum / a.length) ^ 2)).sum / a.length

/-- `varianceFractionRemaining` (loss.py:124-135). -/
noncomputable def varianceFraction (known pred : List ℝ) : Option ℝ :=
  let diff := List.zipWith (fun p k => p - k) pred known
  let avgSqDiff := dotList diff diff / diff.length
  if populationVariance known = 0 then none else some (avgSqDiff / populationVariance known)

/-- `rSquared` (similarity.py:136-143). -/
noncomputable def rSquared (known pred : List ℝ) : Option ℝ :=
  (varianceFraction known pred).map (fun v => 1 - v)

/-- `cosineSimilarity` (similarity.py:34-43). -/
noncomputable def cosineSim (known pred : List ℝ) : Option ℝ :=
  let denominator := Real.sqrt ((known.map (· ^ 2)).sum) * Real.sqrt ((pred.map (· ^ 2)).sum)
  if denominator = 0 then none else some (dotList known pred / denominator)

/-- The performance functions with a declared best value (the decorators in loss.py:72-125 and
similarity.py:34-137). -/
inductive RealMetric where
  | rootMeanSquareError
  | meanAbsoluteError
  | fractionIncorrect
  | varianceFractionRemaining
  | fractionCorrect
  | rSquared
  | cosineSimilarity
  deriving DecidableEq

/-- `optimal` as declared. -/
def RealMetric.optimal : RealMetric → Optimal
  | .rootMeanSquareError => .min
  | .meanAbsoluteError => .min
  | .fractionIncorrect => .min
  | .varianceFractionRemaining => .min
  | .fractionCorrect => .max
  | .rSquared => .max
  | .cosineSimilarity => .max

/-- `best` as declared. -/
def RealMetric.best : RealMetric → ℝ
  | .rootMeanSquareError => 0
  | .meanAbsoluteError => 0
  | .fractionIncorrect => 0
  | .varianceFractionRemaining => 0
  | .fractionCorrect => 1
  | .rSquared => 1
  | .cosineSimilarity => 1

/-- A call. -/
noncomputable def RealMetric.eval (known pred : List ℝ) : RealMetric → Option ℝ
  | .rootMeanSquareError => some (rmse known pred)
  | .meanAbsoluteError => some (mae known pred)
  | .fractionIncorrect => some (fracIncorrect known pred)
  | .varianceFractionRemaining => varianceFraction known pred
  | .fractionCorrect => some (1 - fracIncorrect known pred)
  | .rSquared => Nimble.rSquared known pred
  | .cosineSimilarity => cosineSim known pred

end Nimble
