import Verif.Model.CalcElements

/-!
# `hashCode` and `isApproximatelyEqual` (base.py:86-90, 1450-1518)

The arithmetic of floats is a parameter (`Arith`), so what is proved does not depend on how floats are rounded.
Objects with more than two dimensions are not modelled.
-/

namespace Nimble.Elements
open Nimble.Match Nimble.LearnFill Nimble.Obj

/-- Float arithmetic: `(sin(i) + cos(j)) / 2`, the product of it and an element (which can overflow for integers),
Python's `sum` of a list of floats, the division by the number of elements, the product with a billion. -/
structure Arith where
  weight : Nat → Nat → Flt
  mul : Flt → Flt → Res Flt
  sum : List Flt → Flt
  div : Flt → Nat → Flt
  big : Flt → Flt

/-- The number in an element; `float * None` and `float * 'a'` are TypeErrors. -/
def asNumber : Val → Res Flt
  | .none => .error .TypeError
  | .str _ => .error .TypeError
  | .bool _ b => .ok (.fin (if b then 1 else 0))
  | .int _ i => .ok (.fin i)
  | .flt _ f => .ok f

/-- `hashCodeFunc` (base.py:86-90). -/
def hashCodeFunc (A : Arith) (v : Val) (i j : Nat) : Res (Option Val) := do
  let x ← asNumber v
  let y ← A.mul (A.weight i j) x
  return some (.flt false y)

/-- The float in an element of the array of products. -/
def fltOf : Val → Flt
  | .flt _ f => f
  | .int _ i => .fin i
  | .bool _ b => .fin (if b then 1 else 0)
  | _ => .nan

/-- Python's `round(q)`: half to even. -/
def roundEven (q : Rat) : Int :=
  let f := q.floor
  if q - f < 1 / 2 then f
  else if 1 / 2 < q - f then f + 1
  else if f % 2 = 0 then f else f + 1

/-- `round(x)` of a float. -/
def pyRound : Flt → Res Int
  | .fin q => .ok (roundEven q)
  | .nan => .error .ValueError
  | _ => .error .OverflowError

/-- `int(int(round(bigNum * avg)) % bigNum)` (base.py:1474-1476). -/
def hashOf (A : Arith) (n : Nat) (vals : List Flt) : Res Int :=
  (pyRound (A.big (A.div (A.sum vals) n))).map (fun r => r % 1000000000)

/-- `hashCode` (base.py:1450-1476); `calculateOnElements` gives a Matrix. -/
def hashCode (A : Arith) (P : Conv) (kind : Kind) (o : Obj Val) : Res Int :=
  if o.pts.len = 0 ∨ o.fts.len = 0 then .ok 0
  else do
    let r ← calculateOnElements P kind (.three (hashCodeFunc A)) true false .all .all o
    hashOf A (o.pts.len * o.fts.len) (r.data.flatten.map fltOf)

/-- `isApproximatelyEqual` (base.py:1478-1518). -/
def isApproximatelyEqual (A : Arith) (P : Conv) (k k' : Kind) (a b : Obj Val) : Res Bool :=
  if a.pts.len ≠ b.pts.len ∨ a.fts.len ≠ b.fts.len then .ok false
  else do
    let x ← hashCode A P k a
    let y ← hashCode A P k' b
    return decide (x = y)

end Nimble.Elements
