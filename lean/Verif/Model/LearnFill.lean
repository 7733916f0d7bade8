import Verif.Model.Fill
import Verif.Model.Binary
import Verif.Model.Identical

/-!
# `nimble.fillMatching` (`nimble/core/learn.py:526-673`)

The learner (`trainAndApply(learnerName, toFill, …)`) is an arbitrary function.  Argument merging,
the refusal of scikit-learn's `missing_values` and logging are not modelled.
-/

namespace Nimble.LearnFill
open Obj

variable {V : Type}

/-- `matchingElements`: a function (after `_convertMatchToFunction`, learn.py:649) or a boolean
object. -/
inductive MaskArg (V : Type) where
  | func (m : V → Bool)
  | obj (b : Obj Bool)

/-- `trainX.matchingElements(f)` (base.py:1050-1079): the values, with the names of `trainX`. -/
def matching (m : V → Bool) (o : Obj V) : Obj Bool := ⟨o.data.map (·.map m), o.pts, o.fts⟩

/-- `matchMatrix` and `checkNans` (learn.py:642-652). -/
def maskOf (nan : V) (arg : MaskArg V) (o : Obj V) : Res (Obj Bool × Bool) :=
  match arg with
  | .obj b =>
    if b.pts.len = o.pts.len ∧ b.fts.len = o.fts.len then .ok (b, true)
    else .error .InvalidArgumentValue
  | .func m => .ok (matching m o, !m nan)

/-- Python's comparison of booleans. -/
def boolCmp : Cmp Bool := ⟨fun a b => a == b, fun _ => some (some false)⟩

/-- `if matchMatrix | nanLocs != matchMatrix: raise` (learn.py:654-657); `!=` is the negation of
`isIdentical` (base.py:2490-2494), which also compares the names. -/
def nanCheck (missing : V → Bool) (mask : Obj Bool) (o : Obj V) : Res Unit := do
  let both ← mask.binaryOp (fun a b => a || b) false (matching missing o)
  if isIdentical boolCmp both mask then return () else .error .ImproperObjectAction

/-- `if checkNans:` (learn.py:653). -/
def nanGuard (check : Bool) (missing : V → Bool) (mask : Obj Bool) (o : Obj V) : Res Unit :=
  if check then nanCheck missing mask o else .ok ()

/-- The result of a call that changes an object, for a copy that is dropped on failure. -/
def outcome (p : Obj V × Res Unit) : Res (Obj V) := p.2.map (fun _ => p.1)

/-- `toFill` (learn.py:660-661): `fillMatching` of the features with nan. -/
def toFill (nan : V) (mask : Obj Bool) (o : Obj V) : Res (Obj V) :=
  outcome (fillMatching (fun v b => .ok (Fill.constant nan v b)) (.obj mask) o .feature .all)

/-- Everything before `trainX` is touched (learn.py:641-662). -/
def prepare (learn : Obj V → Res (Obj V)) (missing : V → Bool) (nan : V) (arg : MaskArg V)
    (o : Obj V) : Res (Obj Bool × Obj V) := do
  let p ← maskOf nan arg o
  nanGuard p.2 missing p.1 o
  let t ← toFill nan p.1 o
  let filled ← learn t
  return (p.1, filled)

/-- `filled[i, j]` (base.py:2133-2150): the indices are checked, points first. -/
def fetch (filled : Obj V) (i j : Nat) : Res V := do
  let x ← filled.pts.getIndex (.int i)
  let y ← filled.fts.getIndex (.int j)
  match filled.elem? x.toNat y.toNat with
  | some v => .ok v
  | none => .error .IndexError

/-- `self._data[i][j] = currRet` (list.py:155). -/
def setElem (o : Obj V) (i j : Nat) (v : V) : Obj V :=
  { o with data := o.data.modify i (fun r => r.set j v) }

/-- `transformer(elem, i, j)` (learn.py:664-667) at a matched position. -/
def wanted (mask : Obj Bool) (lp lf : Option (List Nat)) (i j : Nat) : Bool :=
  inLimit lp i && inLimit lf j && (mask.elem? i j).getD false

/-- The loop of `transformElements` (list.py:139-155): an element that is not matched is replaced by
itself. -/
def fillLoop (mask : Obj Bool) (filled : Obj V) (lp lf : Option (List Nat)) :
    List (Nat × Nat) → Obj V → Obj V × Res Unit
  | [], o => (o, .ok ())
  | p :: ps, o =>
    if wanted mask lp lf p.1 p.2 then
      match fetch filled p.1 p.2 with
      | .ok v => fillLoop mask filled lp lf ps (setElem o p.1 p.2 v)
      | .error e => (o, .error e)
    else fillLoop mask filled lp lf ps o

/-- `itertools.product(range(n), range(m))`. -/
def cells (n m : Nat) : List (Nat × Nat) :=
  (List.range n).flatMap (fun i => (List.range m).map (fun j => (i, j)))

/-- Both `points` and `features` resolved (base.py:809-812). -/
def limits (o : Obj V) (points features : Limit) : Res (Option (List Nat) × Option (List Nat)) := do
  let lp ← resolveLimit o.pts points.idents
  let lf ← resolveLimit o.fts features.idents
  return (lp, lf)

/-- The part that changes `trainX` (learn.py:669). -/
def applyFill (o : Obj V) (points features : Limit) (mask : Obj Bool) (filled : Obj V) :
    Obj V × Res Unit :=
  match limits o points features with
  | .error e => (o, .error e)
  | .ok l => fillLoop mask filled l.1 l.2 (cells o.pts.len o.fts.len) o

/-- `nimble.fillMatching(learnerName, matchingElements, trainX, points=…, features=…)`: `trainX`
afterwards and the outcome. -/
def learnFill (learn : Obj V → Res (Obj V)) (missing : V → Bool) (nan : V) (arg : MaskArg V)
    (o : Obj V) (points features : Limit) : Obj V × Res Unit :=
  match prepare learn missing nan arg o with
  | .error e => (o, .error e)
  | .ok p => applyFill o points features p.1 p.2

end Nimble.LearnFill
