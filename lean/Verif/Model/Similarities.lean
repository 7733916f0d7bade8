import Verif.Model.Confidence
import Verif.Model.MetricsReal
import Verif.Model.AxisStats
import Verif.Model.MatMul

/-!
# Similarities of points and features (calculate/similarity.py:46-123, axis.py:860-897)

Numbers are real numbers; `none` is nan or an infinite number, which `np.isfinite` treats alike, and in
the results also the outcome of a division by zero.
-/

namespace Nimble
namespace Similarities

/-- The functions `toCall` stands for (axis.py:868-886). -/
inductive Kind where
  | correlation | sampleCovariance | populationCovariance | dotProduct
  deriving DecidableEq

/-- `accepted` (axis.py:861-864). -/
def accepted : List String :=
  ["correlation", "covariance", "dot product", "sample covariance", "population covariance"]

/-- `validateInputString(similarityFunction, accepted, 'similarities')` and the choice of the function
(axis.py:865-886); the last branch, in which `toCall` is undefined, is not reached. -/
def kindOf (name : String) : Res Kind :=
  let cleanFuncName := AxisStats.clean name
  if cleanFuncName ∉ accepted.map AxisStats.clean then .error .InvalidArgumentValue
  else if cleanFuncName = "correlation" then .ok .correlation
  else if cleanFuncName ∈ ["covariance", "samplecovariance"] then .ok .sampleCovariance
  else if cleanFuncName = "populationcovariance" then .ok .populationCovariance
  else if cleanFuncName = "dotproduct" then .ok .dotProduct
  else .error .ValueError

/-- `np.mean`. -/
noncomputable def mean (l : List ℝ) : ℝ := l.sum / l.length

/-- `row - np.mean(row)`. -/
noncomputable def centred (l : List ℝ) (m : ℝ) : List ℝ := l.map (fun x => x - m)

/-- `np.std`. -/
noncomputable def std (l : List ℝ) : ℝ := Real.sqrt (populationVariance l)

/-- A division of arrays: 0/0 is nan and others by zero are infinite. -/
noncomputable def npDiv (a b : ℝ) : Option ℝ := if b = 0 then none else some (a / b)

/-- A division by the product of the standard deviations (similarity.py:67-69). -/
noncomputable def divCorr (corr : Bool) (v : Option ℝ) (d : ℝ) : Option ℝ :=
  if corr then v.bind (fun x => npDiv x d) else v

/-- One entry of `results` if no data is missing (similarity.py:61-69): `row`, `rowj` are the rows `i`, `j` of
`arrX`, `col` is the column `j` of `arrXT`; `means.T` are means of rows of `arrX`. -/
noncomputable def completeEntry (sample corr : Bool) (row rowj col : List ℝ) : Option ℝ :=
  let dot := dotList (centred row (mean row)) (centred col (mean rowj))
  let v := npDiv dot (if sample then (row.length : ℝ) - 1 else (row.length : ℝ))
  divCorr corr v (std row * std col)

/-- `arrX[i][use]` and `arrXT[:, j][use]` (similarity.py:76-81): the pairs of which both are known. -/
def used : List (Option ℝ) → List (Option ℝ) → List (ℝ × ℝ)
  | some a :: u, some b :: v => (a, b) :: used u v
  | _ :: u, _ :: v => used u v
  | _, _ => []

/-- `val` of similarity.py:76-97. -/
noncomputable def missingEntry (sample corr : Bool) (row col : List (Option ℝ)) : Option ℝ :=
  let ps := used row col
  if ps = [] then none
  else
    let row := ps.map Prod.fst
    let col := ps.map Prod.snd
    let dot := dotList (centred row (mean row)) (centred col (mean col))
    let denominator := if sample then row.length - 1 else row.length
    let v := if denominator ≠ 0 then some (dot / denominator) else none
    divCorr corr v (std row * std col)

/-- `maskX.all()`. -/
def complete (X : Obj (Option ℝ)) : Bool := X.data.all (fun r => r.all Option.isSome)

/-- The matrix of results; with missing values the upper triangle is computed and mirrored
(similarity.py:61-101). -/
noncomputable def results (X XT : Obj (Option ℝ)) (sample corr : Bool) : List (List (Option ℝ)) :=
  let n := X.pts.len
  if complete X && complete XT then
    (List.range n).map (fun i => (List.range n).map (fun j =>
      completeEntry sample corr (Confidence.known (X.vector .point i)) (Confidence.known (X.vector .point j))
        (Confidence.known (XT.vector .feature j))))
  else
    (List.range n).map (fun i => (List.range n).map (fun j =>
      missingEntry sample corr (X.vector .point (min i j)) (XT.vector .feature (max i j))))

/-- `_nanCovCorr` (similarity.py:46-105). -/
noncomputable def nanCovCorr (X XT : Obj (Option ℝ)) (sample corr : Bool) : Res (Obj (Option ℝ)) :=
  Obj.make (results X XT sample corr) X.pts.len X.pts.len X.pts.getNamesNoGen X.pts.getNamesNoGen

/-- `correlation(X, X_T)` (similarity.py:107-115). -/
noncomputable def correlation (X XT : Obj (Option ℝ)) : Res (Obj (Option ℝ)) := nanCovCorr X XT false true

/-- `covariance(X, X_T, sample)` (similarity.py:117-123). -/
noncomputable def covariance (X XT : Obj (Option ℝ)) (sample : Bool := true) : Res (Obj (Option ℝ)) :=
  nanCovCorr X XT sample false

/-- `toCall(X, X_T)` (axis.py:868-886); `mul` is `matrixMultiply`, modelled in MatMul.lean. -/
noncomputable def call (mul : Obj (Option ℝ) → Obj (Option ℝ) → Res (Obj (Option ℝ))) (k : Kind)
    (X XT : Obj (Option ℝ)) : Res (Obj (Option ℝ)) :=
  match k with
  | .correlation => correlation X XT
  | .sampleCovariance => covariance X XT
  | .populationCovariance => covariance X XT false
  | .dotProduct => mul X XT

/-- `toCall(self._base, transposed)` or `toCall(transposed, self._base)` (axis.py:888-893). -/
noncomputable def callAx {V : Type} (f : Obj V → Obj V → Res (Obj V)) (o t : Obj V) : Ax → Res (Obj V)
  | .point => f o t
  | .feature => f t o

/-- `points.similarities(name)`, `features.similarities(name)` (axis.py:860-897), without the paths. -/
noncomputable def similarities (mul : Obj (Option ℝ) → Obj (Option ℝ) → Res (Obj (Option ℝ)))
    (o : Obj (Option ℝ)) (ax : Ax) (name : String) : Res (Obj (Option ℝ)) := do
  let k ← kindOf name
  let t ← o.transpose
  callAx (call mul k) o t ax

end Similarities
end Nimble
