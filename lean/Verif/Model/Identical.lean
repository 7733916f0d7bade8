import Verif.Model.Obj

/-!
# `isIdentical` (base.py:1794-1818, list.py:188-200, matrix.py:126-129, _dataHelpers.py:380-396,
866-917)
-/

namespace Nimble

/-- One direction of the check in `unequalNames` (`checkFromLeftKeys`, _dataHelpers.py:879-887): the
loop over `enumerate(leftNames)` from index `i`. -/
def unequalFromLeft (right : List (Option String)) : Nat → List (Option String) →
    PyDict Nat (Option String × Option String) → PyDict Nat (Option String × Option String)
  | _, [], ret => ret
  | i, none :: ls, ret => unequalFromLeft right (i + 1) ls ret
  | i, some l :: ls, ret =>
    match (right[i]?).join with
    | some r =>
      unequalFromLeft right (i + 1) ls
        (if l ≠ r then PyDict.set ret i (some l, some r) else ret)
    | none => unequalFromLeft right (i + 1) ls (PyDict.set ret i (some l, none))

/-- `unequalNames(selfNames, otherNames)` (_dataHelpers.py:866-893). -/
def unequalNames (self other : List (Option String)) :
    PyDict Nat (Option String × Option String) :=
  unequalFromLeft self 0 other (unequalFromLeft other 0 self [])

/-- `equalNames(selfNames, otherNames)` (_dataHelpers.py:895-917); `none` is Python's `None`. -/
def equalNames : Option (List (Option String)) → Option (List (Option String)) → Bool
  | none, none => true
  | none, some l => l.all Option.isNone
  | some l, none => l.all Option.isNone
  | some l, some r => if l.length ≠ r.length then false else (unequalNames l r).isEmpty

/-- How Python compares elements: `==`, and the conversion to a float by numpy: `none` is a
`TypeError`, `some none` a `ValueError`, `some (some true)` nan, `some (some false)` a number. -/
structure Cmp (V : Type) where
  eq : V → V → Bool
  toFloat : V → Option (Option Bool)

namespace Obj
variable {V : Type}

/-- `sVal != oVal and (sVal == sVal or oVal == oVal)` (list.py:198). -/
def differ (C : Cmp V) (s o : V) : Bool := !C.eq s o && (C.eq s s || C.eq o o)

/-- The loop over the points (list.py:192-200).  Comparing the rows as lists first (line 195) makes
no difference: equal rows pass the elementwise check. -/
def listIdentical (C : Cmp V) : List (List V) → List (List V) → Bool
  | s :: ss, o :: os => if (s.zip o).any (fun p => differ C p.1 p.2) then false
    else listIdentical C ss os
  | _, _ => true

/-- The first failing conversion to float decides the exception (_dataHelpers.py:392-393). -/
def floats (C : Cmp V) : List V → Res (List Bool)
  | [] => .ok []
  | v :: vs => match C.toFloat v with
    | none => .error .TypeError
    | some none => .error .ValueError
    | some (some b) => (floats C vs).map (fun bs => b :: bs)

/-- Only `ValueError` is caught (_dataHelpers.py:388-396). -/
def catchValueError : Res Bool → Res Bool
  | .error .ValueError => .ok false
  | r => r

/-- `allDataIdentical(arr1, arr2)` (_dataHelpers.py:380-396) on arrays of the same shape, as the list
of pairs of elements in row-major order. -/
def allDataIdentical (C : Cmp V) (pairs : List (V × V)) : Res Bool :=
  catchValueError (do
    let check := pairs.filter (fun p => !C.eq p.1 p.2)
    let t1 ← floats C (check.map Prod.fst)
    let t2 ← floats C (check.map Prod.snd)
    return t1.all id && t2.all id)

/-- The checks made by `Base` (base.py:1811-1816). -/
def sameHead (o p : Obj V) : Bool :=
  decide (o.pts.len = p.pts.len) && decide (o.fts.len = p.fts.len) &&
    equalNames o.fts.getNamesNoGen p.fts.getNamesNoGen &&
    equalNames o.pts.getNamesNoGen p.pts.getNamesNoGen

/-- `isIdentical` of two List objects. -/
def isIdentical (C : Cmp V) (o p : Obj V) : Bool :=
  if sameHead o p then listIdentical C o.data p.data else false

/-- `isIdentical` of two Matrix objects (also DataFrame: dataframe.py:148-152). -/
def isIdenticalMatrix (C : Cmp V) (o p : Obj V) : Res Bool :=
  if sameHead o p then allDataIdentical C (o.data.flatten.zip p.data.flatten) else .ok false

end Obj
end Nimble
