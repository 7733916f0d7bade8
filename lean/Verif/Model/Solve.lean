import Verif.Model.Obj

/-!
# Solutions of linear equations (calculate/linalg.py:194-368)

`lin a b` is the routine of scipy which is used (`scipy.linalg.solve`, `scipy.linalg.lstsq(…)[0]`,
`scipy.sparse.linalg.spsolve`, `scipy.sparse.linalg.lsqr(…)[0]`) on the rows of `A` and of the column `b`, with a
column as result.  The routines for Sparse return a one dimensional array, from which the same object is made as
from the transposed column.  The conversions between the types of objects are not modelled.
-/

namespace Nimble
namespace Solve
variable {V : Type}

/-- `solverFunction`. -/
inductive Solver where
  | solve | leastSquaresSolution
  deriving DecidableEq

/-- `bObj.T` if `bObj` is one point (linalg.py:359-363). -/
def asColumn (a b : Obj V) : Res (Obj V) :=
  if b.pts.len = 1 ∧ b.fts.len > 1 then
    if a.pts.len ≠ b.fts.len then .error .InvalidArgumentValueCombination else b.transpose
  else .ok b

/-- linalg.py:364-367. -/
def checkColumn (a b : Obj V) : Res (Obj V) :=
  if b.pts.len > 1 ∧ b.fts.len = 1 ∧ a.pts.len ≠ b.pts.len then .error .InvalidArgumentValueCombination
  else .ok b

/-- `_backendSolversValidation` (linalg.py:342-368). -/
def validation (solver : Solver) (a b : Obj V) : Res (Obj V) :=
  if solver = .solve ∧ a.pts.len ≠ a.fts.len then .error .InvalidArgumentValue
  else if b.pts.len ≠ 1 ∧ b.fts.len ≠ 1 then .error .InvalidArgumentValue
  else do
    let c ← asColumn a b
    checkColumn a c

/-- `_backendSolvers` (linalg.py:302-338). -/
def backend (solver : Solver) (lin : List (List V) → List (List V) → Res (List (List V))) (a b : Obj V) :
    Res (Obj V) := do
  let c ← validation solver a b
  let x ← lin a.data c.data
  Obj.makeFrom (Obj.transposeData 1 x) 0 none (some a.fts.getNames)

/-- `solve(aObj, bObj)` (linalg.py:194-246). -/
def solve (lin : List (List V) → List (List V) → Res (List (List V))) (a b : Obj V) : Res (Obj V) :=
  backend .solve lin a b

/-- `leastSquaresSolution(aObj, bObj)` (linalg.py:249-300). -/
def leastSquaresSolution (lin : List (List V) → List (List V) → Res (List (List V))) (a b : Obj V) :
    Res (Obj V) := backend .leastSquaresSolution lin a b

end Solve
end Nimble
