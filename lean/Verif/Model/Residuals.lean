import Verif.Model.Obj

/-!
# Residuals of linear regressions (calculate/statistic.py:444-498)

Numbers are exact.  `lstsq a b` is `scipy.linalg.lstsq(a, b)[0]` on rows, and returns the columns of the
result.  The conversions between types, the checks that both are objects and that scipy is there are not modelled.
-/

namespace Nimble
namespace Residuals
variable {V : Type}

/-- One entry of `np.matmul(workingCV, x)` (statistic.py:496). -/
def entry [Mul V] [Add V] [Zero V] (row x : List V) : V := (List.zipWith (· * ·) row x).sum

/-- `workingCV`: the copy of `controlVars` with a feature of ones at the end (statistic.py:488-492). -/
def working [One V] (cv : Obj V) : List (List V) := cv.data.map (fun r => r ++ [1])

/-- `toPredict - pred` (statistic.py:496-498): subtracting an array keeps the names of the object
(base.py:5420-5422). -/
def minusPred [Mul V] [Add V] [Zero V] [Sub V] (w xs : List (List V)) (tp : Obj V) : Obj V :=
  { tp with data := List.zipWith (fun row t => List.zipWith (fun v x => v - entry row x) t xs) w tp.data }

/-- `residuals(toPredict, controlVars)` (statistic.py:444-498). -/
def residuals [Mul V] [Add V] [Zero V] [Sub V] [One V]
    (lstsq : List (List V) → List (List V) → Res (List (List V))) (tp cv : Obj V) : Res (Obj V) :=
  if tp.pts.len ≠ cv.pts.len then .error .InvalidArgumentValueCombination
  else if tp.pts.len = 0 ∨ tp.fts.len = 0 then .error .InvalidArgumentValue
  else if cv.pts.len = 0 ∨ cv.fts.len = 0 then .error .InvalidArgumentValue
  else (lstsq (working cv) tp.data).map (fun xs => minusPred (working cv) xs tp)

end Residuals
end Nimble
