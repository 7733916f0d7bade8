import Verif.Model.Obj

/-!
# Name consistency checks (`nimble/core/data/_dataHelpers.py`)
-/

namespace Nimble

/-- One direction of the check (`checkFromLeftKeys`, _dataHelpers.py:844-857): the loop over
`enumerate(leftNames)` from index `i`, filling the dict `ret`. -/
def checkFromLeft (right : List (Option String)) : Nat → List (Option String) →
    PyDict Nat (Option String × Option String) → PyDict Nat (Option String × Option String)
  | _, [], ret => ret
  | i, none :: ls, ret => checkFromLeft right (i + 1) ls ret
  | i, some l :: ls, ret =>
    match (right[i]?).join with
    | some r =>
      checkFromLeft right (i + 1) ls
        (if l ≠ r then PyDict.set ret i (some l, some r) else ret)
    | none =>
      checkFromLeft right (i + 1) ls
        (if some l ∈ right then
          PyDict.set (PyDict.set ret i (some l, none)) (right.idxOf (some l)) (some l, none)
         else ret)

/-- `inconsistentNames(selfNames, otherNames)` (_dataHelpers.py:831-864).  The two lists have the
same length ("Assumptions"). -/
def inconsistentNames (self other : List (Option String)) :
    PyDict Nat (Option String × Option String) :=
  checkFromLeft self 0 other (checkFromLeft other 0 self [])

end Nimble
