import Verif.Model.Binary

/-!
# Matrix multiplication and matrix powers (`nimble/core/data/base.py:4853-5008`)

The elements are numbers with exact arithmetic (any type with addition and multiplication), so the
numeric conversion and validation (base.py:4909-4916, 4938-4944) has no effect.  Object names and
paths (4951) and the choice of the result's storage type are not modelled.
-/

namespace Nimble
namespace Obj
variable {V : Type}

/-- `obj[i, j]`, for indices that are in range wherever the model uses it. -/
def at' [Zero V] (o : Obj V) (i j : Nat) : V := (o.elem? i j).getD 0

/-- The inner loop: `runningTotal += sPoint[index] * oFeature[index]` (list.py:635-637). -/
def dotLoop [Zero V] [Add V] [Mul V] (l r : Obj V) (i j : Nat) : V :=
  (List.range r.pts.len).foldl (fun t k => t + l.at' i k * r.at' k j) 0

/-- `List._matmul__implementation` (list.py:621-640), the raw result. -/
def matmulData [Zero V] [Add V] [Mul V] (l r : Obj V) : List (List V) :=
  (List.range l.pts.len).map (fun i => (List.range r.fts.len).map (fun j => dotLoop l r i j))

/-- `if axis._namesCreated(): ret.axis.setNames(axis.getNames())` (base.py:4946-4949). -/
def giveNames (ret src : AxisSt) : Res AxisSt :=
  match src.tbl with
  | none => .ok ret
  | some t => ret.setNames (.list t.inv)

/-- `caller @ callee` / `matrixMultiply` (`_genericMatMul_implementation`, base.py:4896-4953). -/
def matmul [Zero V] [Add V] [Mul V] (l r : Obj V) : Res (Obj V) := do
  if l.pts.len = 0 ∨ l.fts.len = 0 then .error .ImproperObjectAction           -- 4900-4902
  else if r.pts.len = 0 ∨ r.fts.len = 0 then .error .ImproperObjectAction      -- 4905-4908
  else if l.fts.len ≠ r.pts.len then .error .InvalidArgumentValue              -- 4926-4929
  else if !namesEqualCheck l.fts r.pts then .error .InvalidArgumentValue       -- 4931
  else
    let ret ← makeFrom (matmulData l r) 0 none none                            -- list.py:640
    let pts ← giveNames ret.pts l.pts
    let fts ← giveNames ret.fts r.fts
    return { ret with pts := pts, fts := fts }

/-- `nimble.identity(size)` (create.py:530-550) without names. -/
def identity [Zero V] [One V] (n : Nat) : Res (Obj V) :=
  if n = 0 then .error .InvalidArgumentValue
  else makeFrom ((List.range n).map (fun i => (List.range n).map (fun j => if i = j then 1 else 0)))
    0 none none

/-- `nimble.calculate.inverse` (calculate/linalg.py:32-109) of a square object.  `linInv` is
`scipy.linalg.inv` with its errors translated by the surrounding `except` clauses; the array it
returns has no names.  An empty object is copied with its names (linalg.py:76-77). -/
def inverse (linInv : List (List V) → Res (List (List V))) (o : Obj V) : Res (Obj V) := do
  if o.pts.len = 0 ∧ o.fts.len = 0 then return o
  else if o.pts.len ≠ o.fts.len then .error .InvalidArgumentValue
  else
    let d ← linInv o.data
    makeFrom d 0 none none

/-- `for _ in range(k): ret = ret.matrixMultiply(operand)` (base.py:5000-5001). -/
def powLoop [Zero V] [Add V] [Mul V] (operand : Obj V) : Nat → Obj V → Res (Obj V)
  | 0, ret => .ok ret
  | k + 1, ret => do
    let ret' ← ret.matmul operand
    powLoop operand k ret'

/-- The object the loop multiplies with (base.py:4977-4997). -/
def powOperand [Zero V] [One V] (linInv : List (List V) → Res (List (List V))) (o : Obj V)
    (power : Int) : Res (Obj V) :=
  if power = 0 then identity o.pts.len
  else if power > 0 then .ok ⟨o.data, ⟨o.pts.len, none⟩, ⟨o.fts.len, none⟩⟩
  else inverse linInv o

/-- `matrixPower(power)` for an integer power (base.py:4956-5008). -/
def matrixPower [Zero V] [One V] [Add V] [Mul V] (linInv : List (List V) → Res (List (List V)))
    (o : Obj V) (power : Int) : Res (Obj V) := do
  if o.pts.len ≠ o.fts.len then .error .ImproperObjectAction
  else
    let operand ← powOperand linInv o power
    let ret ← powLoop operand (power.natAbs - 1) operand
    let pts ← ret.pts.setNames (asAssign o.pts.getNamesNoGen)
    let fts ← ret.fts.setNames (asAssign o.fts.getNamesNoGen)
    return { ret with pts := pts, fts := fts }

end Obj
end Nimble
