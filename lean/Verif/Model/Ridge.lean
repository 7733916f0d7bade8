import Verif.Py
import Mathlib.LinearAlgebra.Matrix.NonsingularInverse

/-!
# `nimble.RidgeRegression` and `nimble.MultiOutputRidgeRegression`
(`nimble/learners/ridge_regression.py`, `multioutput_ridge_regression.py`)

Numbers are elements of an ordered field (exact arithmetic); a data object is a matrix of points by
features.
-/

namespace Nimble.Ridge
open Matrix

variable {K : Type} [Field K] [LinearOrder K] {n m p t : Type} [Fintype n] [Fintype m] [DecidableEq m]

/-- `np.linalg.inv`: `LinAlgError` (a `ValueError`) for singular matrices. -/
noncomputable def inv (A : Matrix m m K) : Res (Matrix m m K) :=
  if A.det = 0 then .error .ValueError else .ok A⁻¹

/-- `featureSpace + lambdaMatrix` (ridge_regression.py:58-59, 62). -/
def gram (X : Matrix n m K) (lamb : K) : Matrix m m K := Xᵀ * X + lamb • (1 : Matrix m m K)

/-- `RidgeRegression.train` (ridge_regression.py:39-63): the weights. -/
noncomputable def train (X : Matrix n m K) (Y : Matrix n p K) (lamb : K) : Res (Matrix m p K) := do
  let i ← inv (gram X lamb)
  return (i * Xᵀ) * Y

/-- `RidgeRegression.apply` (ridge_regression.py:65-78). -/
def apply (w : Matrix m p K) (X : Matrix t m K) : Matrix t p K := (wᵀ * Xᵀ)ᵀ

/-- `trainY.features.copy(i)` (multioutput_ridge_regression.py:39). -/
def column (Y : Matrix n p K) (c : p) : Matrix n Unit K := fun i _ => Y i c

/-- `MultiOutputRidgeRegression.train` (multioutput_ridge_regression.py:35-43): one learner per
feature. -/
noncomputable def trainMulti {q : Nat} (X : Matrix n m K) (Y : Matrix n (Fin q) K) (lamb : K) :
    Res (List (Matrix m Unit K)) :=
  (List.finRange q).mapM (fun c => train X (column Y c) lamb)

/-- `MultiOutputRidgeRegression.apply` (multioutput_ridge_regression.py:45-55): the predicted features
one after the other, `none` when there is no learner. -/
def applyMulti (ws : List (Matrix m Unit K)) (X : Matrix t m K) : Option (List (Matrix t Unit K)) :=
  ws.foldl (fun results w => some ((results.getD []) ++ [apply w X])) none

end Nimble.Ridge
