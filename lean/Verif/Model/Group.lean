import Verif.Model.Insert

/-!
# `groupByFeature` (base.py:1330-1448)
-/

namespace Nimble
variable {V K : Type} [DecidableEq K]

/-- The `by` argument: an index, a feature name, or a list of identifiers (base.py:1409-1412). -/
inductive GroupBy where
  | int (i : Int)
  | name (s : String)
  | list (ids : List Ident)

/-- The identifiers looked up in each point. -/
def GroupBy.idents : GroupBy → List Ident
  | .int i => [.int i]
  | .name s => [.str s]
  | .list ids => ids

/-- `by` as the argument of `features.delete` (base.py:1434).  A string that is no feature name
has been refused before, so it is never read as a query. -/
def GroupBy.target : GroupBy → Target V
  | .int i => .one i
  | .name s => .str s (.error .InvalidArgumentValue)
  | .list ids => .list ids

namespace Obj

/-- `prettyKey` of each of the values at `cols`; a single key is modelled as a list of length one
instead of the bare value (base.py:1402-1406).  `prettyKey` is a parameter that may raise. -/
def findKeyVals (prettyKey : V → Res K) : List V → Res (List K)
  | [] => .ok []
  | v :: vs => do
    let k ← prettyKey v
    let ks ← findKeyVals prettyKey vs
    return k :: ks

/-- `findKey(point, by)` for point `i` (base.py:1402-1406). -/
def findKey (o : Obj V) (prettyKey : V → Res K) (by' : GroupBy) (i : Nat) : Res (List K) := do
  let cols ← resolveIdents o.fts by'.idents
  findKeyVals prettyKey (pick (o.vector .point i) cols)

/-- `res[k] = point.copy()` or `res[k].points.append(point.copy())` (base.py:1428-1431). -/
def addToGroup (d : PyDict (List K) (Obj V)) (k : List K) (p : Obj V) :
    Res (PyDict (List K) (Obj V)) :=
  match PyDict.get? d k with
  | none => .ok (PyDict.set d k p)
  | some g => (g.insert .point none p).map (fun g' => PyDict.set d k g')

/-- The loop over the points (base.py:1426-1431). -/
def groupLoop (o : Obj V) (key : Nat → Res (List K)) : List Nat → PyDict (List K) (Obj V) →
    Res (PyDict (List K) (Obj V))
  | [], d => .ok d
  | i :: is, d => do
    let k ← key i
    let p ← o.selected .point [i]
    let d' ← addToGroup d k p
    groupLoop o key is d'

/-- `obj.features.delete(by)`: the state of the group afterwards (base.py:1433-1434). -/
def deleteBy (samp : List Nat → Nat → List Nat) (by' : GroupBy) (g : Obj V) : Res (Obj V) :=
  let r := g.delete samp .feature { target := some by'.target }
  r.2.map (fun _ => r.1)

/-- Delete in every group. -/
def deleteAll (samp : List Nat → Nat → List Nat) (by' : GroupBy) : PyDict (List K) (Obj V) →
    Res (PyDict (List K) (Obj V))
  | [] => .ok []
  | kg :: rest => do
    let g' ← deleteBy samp by' kg.2
    let r ← deleteAll samp by' rest
    return (kg.1, g') :: r

/-- `groupByFeature(by)` with `calculate=None` (base.py:1414-1448). -/
def groupByFeature (samp : List Nat → Nat → List Nat) (o : Obj V) (prettyKey : V → Res K)
    (by' : GroupBy) : Res (PyDict (List K) (Obj V)) := do
  let d ← groupLoop o (o.findKey prettyKey by') (List.range o.pts.len) []
  deleteAll samp by' d

/-- `res[k] = 1` or `res[k] += 1` (base.py:1421-1424). -/
def countKey (d : PyDict (List K) Nat) (k : List K) : PyDict (List K) Nat :=
  match PyDict.get? d k with
  | none => PyDict.set d k 1
  | some n => PyDict.set d k (n + 1)

/-- The counting loop (base.py:1419-1424). -/
def countLoop (key : Nat → Res (List K)) : List Nat → PyDict (List K) Nat →
    Res (PyDict (List K) Nat)
  | [], d => .ok d
  | i :: is, d => do
    let k ← key i
    countLoop key is (countKey d k)

/-- `groupByFeature(by, countUniqueValueOnly=True)` (base.py:1418-1424). -/
def groupCount (o : Obj V) (prettyKey : V → Res K) (by' : GroupBy) :
    Res (PyDict (List K) Nat) :=
  countLoop (o.findKey prettyKey by') (List.range o.pts.len) []

end Obj

/-! ## `prettyKey` -/

/-- An element as `prettyKey` sees it: text, a number other than nan, the very object `np.nan`, a
nan that is another object (what indexing a float array returns), or anything else. -/
inductive GVal where
  | text (s : String)
  | num (q : Rat)
  | npNan
  | freshNan
  | other (n : Nat)
  deriving DecidableEq

/-- Dictionary keys (an integral float is turned into the equal int). -/
inductive GKey where
  | text (s : String)
  | num (q : Rat)
  | other (n : Nat)
  deriving DecidableEq

/-- `prettyKey` (base.py:1388-1400); `hasNaN`: the text `'NaN'` occurs in the feature.  A nan that
is not the object `np.nan` is not `in undefined`, and `int(nan)` raises. -/
def prettyKey (hasNaN : Bool) : GVal → Res GKey
  | .text s => .ok (.text s)
  | .num q => .ok (.num q)
  | .npNan => .ok (.text (if hasNaN then "numpy.nan" else "NaN"))
  | .freshNan => .error .ValueError
  | .other n => .ok (.other n)

end Nimble
