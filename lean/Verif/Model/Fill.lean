import Verif.Model.Obj
import Mathlib.Data.Rat.Defs

/-!
# Filling and transforming (`nimble/fill/fill.py`, `Axis._transform`, `Axis._fillMatching`)

A fill function receives a vector (a view of one point or feature) and the matcher; after
`_booleanElementMatch` (fill.py:28-32) the latter is a boolean vector `toFill`, here the list of
its elements.
-/

namespace Nimble
namespace Fill
variable {V : Type}

/-- `_booleanElementMatch(vector, match)` for a match function (fill.py:28-31): the function
applied to every element. -/
def boolMatch (m : V → Bool) (vec : List V) : List Bool := vec.map m

/-- `constant` (fill.py:86-94): `[constantValue if fill else val for val, fill in zip(vec, toFill)]`. -/
def constant (c : V) (vec : List V) (toFill : List Bool) : List V :=
  (vec.zip toFill).map (fun p => if p.2 then c else p.1)

/-- `ret.append(ret[-1])` (fill.py:325). -/
def repeatLast (ret : List V) : Res (List V) :=
  match ret.getLast? with
  | some x => .ok (ret ++ [x])
  | none => .error .IndexError

/-- The loop of the forward filler (fill.py:322-328). -/
def forwardLoop : List V → List (V × Bool) → Res (List V)
  | ret, [] => .ok ret
  | ret, p :: rest =>
    if p.2 then do
      let ret' ← repeatLast ret
      forwardLoop ret' rest
    else forwardLoop (ret ++ [p.1]) rest

/-- `forwardFill` (fill.py:316-332).  `toFill[0]` of an empty vector raises. -/
def forwardFill (vec : List V) (toFill : List Bool) : Res (List V) :=
  match toFill.head? with
  | none => .error .IndexError
  | some true => .error .InvalidArgumentValue
  | some false => forwardLoop [] (vec.zip toFill)

/-- `ret[idx] = ret[idx + 1]` when the array is filled from its end: `ret` holds the entries
`idx + 1 ..` (fill.py:402). -/
def repeatFirst (ret : List V) : Res (List V) :=
  match ret.head? with
  | some x => .ok (x :: ret)
  | none => .error .IndexError

/-- The loop of the backward filler over the reversed vector (fill.py:398-405). -/
def backwardLoop : List V → List (V × Bool) → Res (List V)
  | ret, [] => .ok ret
  | ret, p :: rest =>
    if p.2 then do
      let ret' ← repeatFirst ret
      backwardLoop ret' rest
    else backwardLoop (p.1 :: ret) rest

/-- `backwardFill` (fill.py:389-409). -/
def backwardFill (vec : List V) (toFill : List Bool) : Res (List V) :=
  match toFill.getLast? with
  | none => .error .IndexError
  | some true => .error .InvalidArgumentValue
  | some false => backwardLoop [] (vec.reverse.zip toFill.reverse)

/-- The unmatched values: `[val for val, fill in zip(vec, toFill) if not fill]` (fill.py:517-518). -/
def unmatched (vec : List V) (toFill : List Bool) : List V :=
  ((vec.zip toFill).filter (fun p => !p.2)).map Prod.fst

/-- `statsBackend` (fill.py:511-536) with the statistic as a parameter (`nimble.calculate.mean`,
`median`, `mode`); `bad` is `stat != stat`.  The unmatched vector object is empty, hence falsy,
exactly when all elements match. -/
def stats (stat : List V → V) (bad : V → Bool) (vec : List V) (toFill : List Bool) :
    Res (List V) :=
  let u := unmatched vec toFill
  if u.length = vec.length then .ok vec
  else if u.isEmpty then .error .InvalidArgumentValue
  else if bad (stat u) then .error .InvalidArgumentValue
  else .ok (constant (stat u) vec toFill)

/-- Indices and values of the elements with `fill = b`, in order (fill.py:474-482). -/
def located (b : Bool) (vec : List V) (toFill : List Bool) : List (Nat × V) :=
  ((vec.zip toFill).zipIdx.filter (fun p => p.1.2 == b)).map (fun p => (p.2, p.1.1))

/-- `np.interp(x, xp, fp)` for increasing sample points and one `x`, as numpy documents it:
piecewise linear, constant to the left of the first and to the right of the last sample point. -/
def interpAt : List (Nat × Rat) → Nat → Rat
  | [], _ => 0
  | [(_, y)], _ => y
  | (x0, y0) :: (x1, y1) :: rest, x =>
    if x ≤ x0 then y0
    else if x ≤ x1 then y0 + (y1 - y0) * ((x : Rat) - x0) / ((x1 : Rat) - x0)
    else interpAt ((x1, y1) :: rest) x

/-- The loop of the interpolation filler (fill.py:492-501): `tmp` are the entries `tmpV[j:]`. -/
def interpLoop (matchedLoc : List Nat) : Nat → List Rat → List Rat → Res (List Rat)
  | _, _, [] => .ok []
  | i, tmp, v :: vs =>
    if i ∈ matchedLoc then
      match tmp with
      | [] => .error .IndexError
      | t :: tmp' => do
        let rest ← interpLoop matchedLoc (i + 1) tmp' vs
        return t :: rest
    else do
      let rest ← interpLoop matchedLoc (i + 1) tmp vs
      return v :: rest

/-- `interpolate` with the default sample points (fill.py:469-505).  `np.interp` refuses an empty
list of sample points. -/
def interpolate (vec : List Rat) (toFill : List Bool) : Res (List Rat) :=
  let matchedLoc := (located true vec toFill).map Prod.fst
  let samples := located false vec toFill
  if samples.isEmpty then .error .ValueError
  else interpLoop matchedLoc 0 (matchedLoc.map (interpAt samples)) vec

end Fill

namespace Obj
variable {V : Type}

/-- Storing a new vector at index `i` (listAxis.py:205 for points, 298-299 for features). -/
def setVector (o : Obj V) (ax : Ax) (i : Nat) (v : List V) : Obj V :=
  match ax with
  | .point => { o with data := o.data.set i v }
  | .feature => { o with data := List.zipWith (fun r x => r.set i x) o.data v }

/-- The wrapper around the user function (`validateAxisFunction`, _dataHelpers.py:613-671): the
returned iterable must have as many elements as the other axis.  Element types are not modelled. -/
def checkedLength {S : Type} (allowed : Nat) (r : Res (List V × S)) : Res (List V × S) := do
  let p ← r
  if p.1.length ≠ allowed then .error .InvalidArgumentValue else return p

/-- `_transform_implementation` (listAxis.py:199-205, 292-299): walk the axis in order, skip what
is not in `limitTo`, store each result at once.  `f` may carry state (an iterator) from call to
call. -/
def transformLoop {S : Type} (f : S → List V → Res (List V × S)) (want : Nat → Bool) (ax : Ax) :
    List Nat → S → Obj V → Obj V × Res Unit
  | [], _, o => (o, .ok ())
  | i :: is, s, o =>
    if want i then
      match checkedLength (o.axis ax.off).len (f s (o.vector ax i)) with
      | .error e => (o, .error e)
      | .ok p => transformLoop f want ax is p.2 (o.setVector ax i p.1)
    else transformLoop f want ax is s o

/-- `limitTo is None or i in limitTo` (listAxis.py:201, 294). -/
def inLimit (lim : Option (List Nat)) (i : Nat) : Bool :=
  match lim with
  | none => true
  | some l => decide (i ∈ l)

/-- `limitTo` resolved (axis.py:503-504). -/
def resolveLimit (a : AxisSt) : Option (List Ident) → Res (Option (List Nat))
  | none => .ok none
  | some ids => (resolveIdents a ids).map some

/-- `_transform` (axis.py:490-506). -/
def transformWith {S : Type} (f : S → List V → Res (List V × S)) (s : S) (o : Obj V) (ax : Ax)
    (limitTo : Option (List Ident)) : Obj V × Res Unit :=
  if o.pts.len = 0 then (o, .error .ImproperObjectAction)
  else if o.fts.len = 0 then (o, .error .ImproperObjectAction)
  else match resolveLimit (o.axis ax) limitTo with
    | .error e => (o, .error e)
    | .ok lim => transformLoop f (inLimit lim) ax (List.range (o.axis ax).len) s o

/-- `points.transform(function, points)` / `features.transform(function, features)`. -/
def transform (f : List V → Res (List V)) (o : Obj V) (ax : Ax) (limitTo : Option (List Ident)) :
    Obj V × Res Unit :=
  transformWith (fun (_ : Unit) v => (f v).map (fun w => (w, ()))) () o ax limitTo

/-- `matchingElements`: a function on elements, or a boolean object (axis.py:783-794).  (Query
strings become functions.) -/
inductive Matcher (V : Type) where
  | func (m : V → Bool)
  | obj (b : Obj Bool)

/-- The `points`/`features` argument of `fillMatching`: absent, one index, one name, or a list. -/
inductive Limit where
  | all
  | index (i : Int)
  | name (s : String)
  | list (ids : List Ident)

/-- `limitTo` as a list of identifiers (`valuesToPythonList`, _dataHelpers.py:285-303). -/
def Limit.idents : Limit → Option (List Ident)
  | .all => none
  | .index i => some [.int i]
  | .name s => some [.str s]
  | .list ids => some ids

/-- `idxOrder` (axis.py:774-780).  `iter(limitTo)` succeeds for a string too and then yields its
characters. -/
def Limit.idxOrder (a : AxisSt) : Limit → Res (List Ident)
  | .all => .ok ((List.range a.len).map (fun (k : Nat) => .int k))
  | .index i => (a.getIndex (.int i)).map (fun k => [.int k])
  | .name s => .ok (s.toList.map (fun c => .str c.toString))
  | .list ids => .ok ids

/-- `matchingElements[next(idxOrder), :]` / `matchingElements[:, next(idxOrder)]`
(axis.py:791-794): the identifier is looked up in the boolean object. -/
def matcherRow (b : Obj Bool) (ax : Ax) (order : List Ident) : Res (List Bool × List Ident) :=
  match order with
  | [] => .error .StopIteration
  | id :: rest => ((b.axis ax).getIndex id (allowFloats := true)).map
      (fun k => (b.vector ax k.toNat, rest))

/-- `fillFunction` (axis.py:782-796); the state is what is left of the iterator. -/
def fillFunction (fl : List V → List Bool → Res (List V)) (m : Matcher V) (ax : Ax)
    (order : List Ident) (v : List V) : Res (List V × List Ident) :=
  match m with
  | .func g => (fl v (Fill.boolMatch g v)).map (fun w => (w, order))
  | .obj b => do
    let p ← matcherRow b ax order
    let w ← fl v p.1
    return (w, p.2)

/-- `fillMatching` (axis.py:757-802): `fl` is the fill function (`fill.constant` when a value was
given).  The resolution of `idxOrder` of a single index happens before anything else. -/
def fillMatching (fl : List V → List Bool → Res (List V)) (m : Matcher V) (o : Obj V) (ax : Ax)
    (limitTo : Limit) : Obj V × Res Unit :=
  match limitTo.idxOrder (o.axis ax) with
  | .error e => (o, .error e)
  | .ok order => transformWith (fillFunction fl m ax) order o ax limitTo.idents

end Obj
end Nimble
