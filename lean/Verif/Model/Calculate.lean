import Verif.Model.Obj

/-!
# calculate (`Axis._calculate`, axis.py:512-616)
-/

namespace Nimble
namespace Obj
variable {V W : Type}

/-- What the user function returned for one vector: its values and, when it returned a data object
oriented like the vector, that object's names along the other axis (`None` otherwise). -/
structure CalcOut (W : Type) where
  vals : List W
  names : Option (List (Option String)) := none

/-- The loop of `_calculate_implementation` (axis.py:585-614): apply the function to the views in
the order of `limitTo`. -/
def calcLoop (f : AxView V → Res (CalcOut W)) (o : Obj V) (ax : Ax) : List Nat → Res (List (CalcOut W))
  | [] => .ok []
  | i :: is => do
    let r ← f (o.view ax none i)
    let rest ← calcLoop f o ax is
    return r :: rest

/-- `limitTo` as indices (axis.py:540-543); repeated identifiers are not refused. -/
def calcIndices (a : AxisSt) : Option (List Ident) → Res (List Nat)
  | none => .ok (List.range a.len)
  | some ids => resolveIdents a ids

/-- The nameless object holding the results, one per point (feature) (axis.py:547-558).
`nimble.data` refuses rows of different lengths. -/
def calcObject (ax : Ax) (rows : List (List W)) : Res (Obj W) :=
  let w := (rows.head?.map List.length).getD 0
  if rows.all (fun r => r.length == w) then
    match ax with
    | .point => .ok ⟨rows, ⟨rows.length, none⟩, ⟨w, none⟩⟩
    | .feature => .ok ⟨transposeData w rows, ⟨w, none⟩, ⟨rows.length, none⟩⟩
  else .error .InvalidArgumentValue

/-- The names given to the result along the axis (axis.py:560-566): the names of the selected
indices if fewer were selected than the axis has, else *all* names of the axis in their order. -/
def calcNames (a : AxisSt) (idx : List Nat) : Option (List (Option String)) :=
  if idx.length < a.len ∧ a.namesCreated = true then some (pick a.getNames idx)
  else if a.namesCreated = true then some a.getNames
  else none

/-- `if names: setter(names)` (axis.py:560-568). -/
def setOptNames (a : AxisSt) : Option (List (Option String)) → Res AxisSt
  | none => .ok a
  | some l => a.setNames (.list l)

/-- `points.calculate(function, points)` / `features.calculate(function, features)`
(axis.py:512-573).  File paths are not modelled. -/
def calculate (f : AxView V → Res (CalcOut W)) (o : Obj V) (ax : Ax)
    (limitTo : Option (List Ident)) : Res (Obj W) :=
  if o.pts.len = 0 then .error .ImproperObjectAction
  else if o.fts.len = 0 then .error .ImproperObjectAction
  else do
    let idx ← calcIndices (o.axis ax) limitTo
    let outs ← calcLoop f o ax idx
    let ret ← calcObject ax (outs.map CalcOut.vals)
    let a ← setOptNames (ret.axis ax) (calcNames (o.axis ax) idx)
    let ret := ret.setAxis ax a
    let b ← setOptNames (ret.axis ax.off) ((outs.head?.bind CalcOut.names))
    return ret.setAxis ax.off b

end Obj
end Nimble
