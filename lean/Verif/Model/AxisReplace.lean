import Verif.Model.Fill
import Verif.Model.Insert

/-!
# points.replace and features.replace (`nimble/core/data/axis.py:641-697`)

Two-dimensional objects. Data that is no nimble object is given as its rows (numbers, so that `nimble.data` looks for
no names in it; a flat list is one row), and the names in `dataKwds` as lists; other `dataKwds` are left out.
-/

namespace Nimble.Obj
variable {V : Type}

/-- The `data` argument: a nimble object (and whether `dataKwds` were given), or rows with the names in `dataKwds`. -/
inductive ReplaceData (V : Type) where
  | obj (d : Obj V) (kwds : Bool)
  | rows (r : List (List V)) (pointNames featureNames : Option (List (Option String)))

/-- `setNames` on one axis if names were given (axis.py:664-667). -/
def setNamesOn (d : Obj V) (ax : Ax) : Option (List (Option String)) → Res (Obj V)
  | none => .ok d
  | some l => do
    let a ← (d.axis ax).setNames (.list l)
    return d.setAxis ax a

/-- `dataObj.shape[ax] == 1 and dataObj.shape[offAx] > 1` (axis.py:660-661): one value per point when points are
replaced, one point when features are. -/
def needsTranspose (d : Obj V) : Ax → Bool
  | .point => d.fts.len == 1 && decide (1 < d.pts.len)
  | .feature => d.pts.len == 1 && decide (1 < d.fts.len)

/-- The transpose of axis.py:661-663. -/
def orient (d : Obj V) (ax : Ax) : Res (Obj V) := if needsTranspose d ax then d.transpose else .ok d

/-- The replacement object (axis.py:642-667). -/
def replacement (ax : Ax) : ReplaceData V → Res (Obj V)
  | .obj d kwds => if kwds then .error .InvalidArgumentValue else .ok d
  | .rows r pn fn => do
    let d ← makeFrom r 0 none none
    let d ← orient d ax
    let d ← setNamesOn d .point pn
    setNamesOn d .feature fn

/-- The locations (axis.py:671-684). -/
def replaceLocations (o : Obj V) (ax : Ax) (d : Obj V) : Option (List Ident) → Res (List Nat)
  | some ids => resolveIdents (o.axis ax) ids
  | none =>
    if o.pts.len = d.pts.len ∧ o.fts.len = d.fts.len then .ok (List.range (o.axis ax).len)
    else if ¬ (o.axis ax).namesCreated then .error .InvalidArgumentValue
    else if ¬ (d.axis ax).namesCreated then .error .InvalidArgumentValue
    else resolveNames (o.axis ax) (d.axis ax).getNames

/-- The loop (axis.py:689-697): location by location, with the vectors of the replacement in order. -/
def replaceLoop (ax : Ax) (d : Obj V) : List (Nat × Nat) → Obj V → Obj V × Res Unit
  | [], o => (o, .ok ())
  | (k, i) :: rest, o =>
    match transform (fun _ => .ok (d.vector ax k)) o ax (some [.int i]) with
    | (o', .error e) => (o', .error e)
    | (o', .ok _) => replaceLoop ax d rest o'

/-- `points.replace(data, points, **dataKwds)` / `features.replace` (axis.py:641-697). -/
def axisReplace (o : Obj V) (ax : Ax) (data : ReplaceData V) (locations : Option (List Ident)) : Obj V × Res Unit :=
  match replacement ax data with
  | .error e => (o, .error e)
  | .ok d =>
    match replaceLocations o ax d locations with
    | .error e => (o, .error e)
    | .ok idx =>
      if idx.length ≠ (d.axis ax).len then (o, .error .InvalidArgumentValue)
      else replaceLoop ax d ((List.range (d.axis ax).len).zip idx) o

end Nimble.Obj
