import Verif.Model.Sparse
import Verif.Model.Normalize
import Verif.Model.MultiClass
import Mathlib.Algebra.Order.Field.Rat

/-!
# Statistics of a vector (calculate/statistic.py)

Elements are exact numbers or missing.  Each statistic has two programs: one for a `Sparse` vector, which
uses what is stored, one for the other types, which uses all elements.  Elements which are not numbers
(where the numeric statistics give nan) and rounding are not represented.
-/

namespace Nimble
namespace Stat
open Sp MultiClass

/-- The zero of elements; none of them is missing. -/
instance : Zero (Option ℚ) := ⟨some 0⟩

/-- `values._data.data`, the stored elements. -/
def stored (c : Coo (Option ℚ)) : List (Option ℚ) := c.ents.map Ent.val

/-- `values._data.nnz`, the number of stored entries. -/
def nnz (c : Coo (Option ℚ)) : Nat := c.ents.length

/-- `len(values)` (base.py:434-450) of an object with at most one point or at most one feature (an
error for others). -/
def vecLen (c : Coo (Option ℚ)) : Nat :=
  if c.rows = 0 ∨ c.cols = 0 then 0 else if c.rows = 1 then c.cols else c.rows

/-! ### Dense types -/

/-- `iterateElements(only=...)` of the dense types (_dataHelpers.py:728-769). -/
def iterOnly (only : Option ℚ → Bool) (vs : List (Option ℚ)) : List (Option ℚ) := vs.filter only

/-- `match.missing`, `match.zero` (match/match.py:24-50, 158-180) and `nonMissing`, `nonMissingNonZero`
(statistic.py:433-443). -/
def isMissing (v : Option ℚ) : Bool := v.isNone
def isZero (v : Option ℚ) : Bool := decide (v = some 0)
def nonMissing (v : Option ℚ) : Bool := !isMissing v
def nonMissingNonZero (v : Option ℚ) : Bool := !isMissing v && !isZero v

/-- A division of numpy numbers; by zero it gives nan here (the numerators are zero or nan). -/
def npDiv (a : ℚ) (b : Int) : Option ℚ := if b = 0 then none else some (a / b)

/-- `proportionMissing` (statistic.py:54-74), for a vector with elements. -/
def proportionMissingD (vs : List (Option ℚ)) : ℚ := (iterOnly isMissing vs).length / vs.length

/-- `proportionZero`, not Sparse (statistic.py:95-96). -/
def proportionZeroD (vs : List (Option ℚ)) : ℚ := (iterOnly isZero vs).length / vs.length

/-- `np.nanvar(arr, ddof)` (statistic.py:332-335): missing unless there are more than `ddof` values. -/
def nanVar (ddof : Nat) (vs : List (Option ℚ)) : Option ℚ :=
  let p := present vs
  if p.length ≤ ddof then none
  else some ((p.map (fun x => (x - p.sum / p.length) ^ 2)).sum / ((p.length : Int) - (ddof : Int)))

/-- `variance(values, sample)`, not Sparse (statistic.py:331-335). -/
def varianceD (sample : Bool) (vs : List (Option ℚ)) : Option ℚ := nanVar (if sample then 1 else 0) vs

/-- The values after `first` while their count is `modeCount` (statistic.py:279-283). -/
def modesOf : List (ℚ × Nat) → List ℚ
  | [] => []
  | (first, modeCount) :: rest => first :: (rest.takeWhile (fun p => decide (p.2 = modeCount))).map Prod.fst

/-- From the counts to the mode (statistic.py:272-293); `none` is the exception for no counts.
`Counter.most_common()` sorts by decreasing count and is stable. -/
def modeOf (counter : List (ℚ × Nat)) : Option ℚ :=
  let modes := modesOf (counter.mergeSort (fun a b => decide (b.2 ≤ a.2)))
  let center := if modes.length % 2 = 0 then modes.length / 2 - 1 else modes.length / 2
  (modes.mergeSort (fun a b => decide (a ≤ b)))[center]?

/-- `mode(values)`, not Sparse (statistic.py:269-293). -/
def modeD (vs : List (Option ℚ)) : Option ℚ := modeOf (countWins (present (iterOnly nonMissing vs)))

/-- `uniqueCount(values)`, not Sparse (statistic.py:397-400). -/
def uniqueCountD (vs : List (Option ℚ)) : Nat := (present (iterOnly nonMissing vs)).dedup.length

/-! ### Sparse -/

/-- `iterateElements(only=...)` of Sparse, for a function which is false for zero (sparse.py:1282-1284):
the stored elements; their order is not represented. -/
def iterStored (only : Option ℚ → Bool) (c : Coo (Option ℚ)) : List (Option ℚ) := (stored c).filter only

def proportionMissingS (c : Coo (Option ℚ)) : ℚ := (iterStored isMissing c).length / vecLen c

/-- `proportionZero`, Sparse (statistic.py:93-94). -/
def proportionZeroS (c : Coo (Option ℚ)) : ℚ := (((vecLen c : Int) - (nnz c : Int) : Int) : ℚ) / vecLen c

/-- The elements `_minmax` looks at (statistic.py:149-152). -/
def minmaxStored (c : Coo (Option ℚ)) : List (Option ℚ) :=
  if vecLen c > nnz c then stored c ++ [some 0] else stored c

/-- `minimum` and `maximum`, Sparse (statistic.py:142-169). -/
def minimumS (c : Coo (Option ℚ)) : Option ℚ := nanMin (minmaxStored c)
def maximumS (c : Coo (Option ℚ)) : Option ℚ := nanMax (minmaxStored c)

/-- `np.sum(np.isnan(nonZero))`. -/
def numNan (c : Coo (Option ℚ)) : Nat := (stored c).countP isMissing

/-- `mean`, Sparse (statistic.py:171-178, 205-208). -/
def meanS (c : Coo (Option ℚ)) : Option ℚ := npDiv (present (stored c)).sum ((vecLen c : Int) - (numNan c : Int))

/-- `variance`, Sparse (statistic.py:319-329). -/
def varianceS (sample : Bool) (c : Coo (Option ℚ)) : Option ℚ :=
  match meanS c with
  | none => none
  | some m =>
    let dataSumSquared := ((present (stored c)).map (fun x => (x - m) ^ 2)).sum
    let zeroSumSquared := m ^ 2 * (((vecLen c : Int) - (nnz c : Int) : Int) : ℚ)
    npDiv (dataSumSquared + zeroSumSquared) ((vecLen c : Int) - (numNan c : Int) - (if sample then 1 else 0))

/-- `counter.update({k: n})`. -/
def counterAdd (k : ℚ) (n : Nat) (counter : List (ℚ × Nat)) : List (ℚ × Nat) :=
  dictSet k ((dictGet k counter).getD 0 + n) counter

/-- `mode`, Sparse (statistic.py:263-268, 272-293).  `numZero` is not negative for at most one entry per
position. -/
def modeS (c : Coo (Option ℚ)) : Option ℚ :=
  let numZero := vecLen c - nnz c
  let counter := countWins (present (iterStored nonMissingNonZero c))
  modeOf (if numZero = 0 then counter else counterAdd 0 numZero counter)

/-- `uniqueCount`, Sparse (statistic.py:392-396). -/
def uniqueCountS (c : Coo (Option ℚ)) : Nat :=
  let valueSet := (present (iterStored nonMissingNonZero c)).dedup
  (if vecLen c > nnz c then valueSet.insert 0 else valueSet).length

end Stat
end Nimble
