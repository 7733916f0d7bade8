import Verif.Model.Create
import Verif.Model.GetItem
import Verif.Model.Flatten
import Verif.Model.Insert
import Verif.Model.Identical

/-!
# Data with more than two dimensions

`nimble.data` of nested Python lists (`_createHelpers.py:1137-1304, 1545-1571`), the reshaped copy
(`base.py:3795-3856`), single points (`axis.py:363-374`, `list.py:541-579`), the structural
operations of points (`axis.py:1133-1244`), `insert`/`append`, `flatten`/`unflatten` and
`isIdentical` of such objects.  Only the `List` representation and nested Python lists are modelled
(no numpy, pandas, scipy or nimble objects inside the data, no dictionaries).
-/

namespace Nimble
variable {V : Type}

/-- Nested Python lists; a leaf is an element (`isAllowedSingleElement`). -/
inductive Nest (V : Type) where
  | leaf (v : V)
  | node (cs : List (Nest V))

/-- The state of `flattenToOneDimension`: `toFill`, and `dimensions`, whose flag says that this is
still the path along the first items (_createHelpers.py:1246-1251). -/
structure Flat (V : Type) where
  fill : List V
  first : Bool
  dims : List Nat

/-- `dimensions[1].append(_getPointCount(data))` when the flag is set (_createHelpers.py:1248-1251). -/
def Flat.note (s : Flat V) (n : Nat) : Flat V := if s.first then { s with dims := s.dims ++ [n] } else s

/-- `all(map(isAllowedSingleElement, data))`, and the elements (_createHelpers.py:1258). -/
def leaves : List (Nest V) → Option (List V)
  | [] => some []
  | .leaf v :: cs => (leaves cs).map (v :: ·)
  | .node _ :: _ => none

/-- `except TypeError: raise InvalidArgumentValue` (_createHelpers.py:1264-1267). -/
def typeAsValue {A : Type} : Res A → Res A
  | .error .TypeError => .error .InvalidArgumentValue
  | x => x

mutual
/-- `flattenToOneDimension` (_createHelpers.py:1234-1269).  `chars v` is what iterating over the
element `v` gives: the characters of a string, nothing for a number or `None` (a `TypeError`, outside
the `try` if `len` is asked first). -/
def flatten1 (chars : V → Option (List V)) : Nest V → Flat V → Res (Flat V)
  | .leaf v, s => match chars v with
    | some l => .ok { s.note l.length with fill := s.fill ++ l }
    | none => if s.first then .error .TypeError else .error .InvalidArgumentValue
  | .node cs, s => match leaves cs with
    | some vs => .ok { s.note cs.length with fill := s.fill ++ vs }
    | none => typeAsValue (flattenAll chars cs (s.note cs.length))
/-- The loop of `flattenToOneDimension` (_createHelpers.py:1261-1263). -/
def flattenAll (chars : V → Option (List V)) : List (Nest V) → Flat V → Res (Flat V)
  | [], s => .ok s
  | c :: cs, s => (flatten1 chars c s).bind (fun t => flattenAll chars cs { t with first := false })
end

/-- `flattenToOneDimension(point)`: the values and the dimensions. -/
def flattenPoint (chars : V → Option (List V)) (p : Nest V) : Res (List V × List Nat) :=
  (flatten1 chars p ⟨[], true, []⟩).map (fun s => (s.fill, s.dims))

/-- `rawData[i] = flat` for a row of `n` cells of a numpy array (_createHelpers.py:1302): one value
is broadcast. -/
def assignRow (n : Nat) (flat : List V) : Res (List V) :=
  if flat.length = n then .ok flat
  else match flat with
    | [v] => .ok (List.replicate n v)
    | _ => .error .ValueError

/-- The row of a further point (_createHelpers.py:1296-1302). -/
def nextRow (chars : V → Option (List V)) (n : Nat) (ds : List Nat) (p : Nest V) : Res (List V) := do
  let x ← flattenPoint chars p
  if x.2 = ds then assignRow n x.1 else .error .InvalidArgumentValue

/-- `flattenHighDimensionFeatures` of a list (_createHelpers.py:1284-1304). -/
def flattenHigh (chars : V → Option (List V)) : List (Nest V) → Res (List (List V) × List Nat)
  | [] => .error .StopIteration
  | p :: ps => do
    let x ← flattenPoint chars p
    let rows ← mapRes (nextRow chars x.1.length x.2) ps
    return (x.1 :: rows, (ps.length + 1) :: x.2)

/-- `isHighDimensionData` with `rowsArePoints=True` for nested lists (_createHelpers.py:1145-1163,
1187-1188): the first item of the first item is no element. -/
def isHighDim : List (Nest V) → Bool
  | .node (.node _ :: _) :: _ => true
  | _ => false

/-- `highDimensionNames` (_createHelpers.py:1209-1224). -/
def highNames : NamesArg → Res (Option (List (Option String)))
  | .auto => .ok none
  | .no => .ok none
  | .yes => .error .InvalidArgumentValue
  | .given l => .ok (some l)

/-- An object of any number of dimensions: `_dims`, and the two dimensional object that holds the
data (one point per row, its values one after the other) and the names. -/
structure HObj (V : Type) where
  dims : List Nat
  obj : Obj V
  deriving DecidableEq

/-- `nimble.data(data, pointNames, featureNames)` for data found to be of high dimension, with
`returnType='List'` (_createHelpers.py:1558-1571, 1592-1627; list.py:116-131: the shape is the
recorded one, whatever the length of the rows).  Data without elements is not modelled faithfully
(`convertData` makes an array of its own size). -/
def highData (C : CellOps V) (chars : V → Option (List V)) (pn fn : NamesArg)
    (data : List (Nest V)) : Res (HObj V) := do
  let p ← highNames pn
  let f ← highNames fn
  let x ← flattenHigh chars data
  let o ← Obj.make (replaceMissing C x.1) (x.2.headD 0) x.2.tail.prod p f
  return ⟨x.2, o⟩

/-- `numpy.ndarray.tolist` of an array of shape `ds` with these values in order. -/
def reshapeKids : List Nat → List V → List (Nest V)
  | [], _ => []
  | [_], l => l.map .leaf
  | d :: d' :: ds, l => (List.range d).map (fun i =>
      .node (reshapeKids (d' :: ds) ((l.drop (i * (d' :: ds).prod)).take (d' :: ds).prod)))

namespace HObj

/-- `np.reshape(rows, dims).tolist()` (base.py:3853); `np` is what making one numpy array of all the
values does to them. -/
def reshaped (np : List V → List V) (dims : List Nat) (rows : List (List V)) : Res (List (Nest V)) :=
  if rows.flatten.length = dims.prod then .ok (reshapeKids dims (np rows.flatten))
  else .error .ValueError

/-- `copy('python list')` (base.py:3820-3821, 3850-3856 with `rowsArePoints=True`). -/
def copyList (np : List V → List V) (h : HObj V) : Res (List (Nest V)) :=
  if 2 < h.dims.length then reshaped np h.dims h.obj.data
  else .ok (h.obj.data.map (fun r => .node (r.map .leaf)))

/-- `_createNestedObject(pointIndex)` (list.py:567-579). -/
def nested (h : HObj V) (i : Nat) : Res (HObj V) := do
  let d := h.dims.tail.headD 0
  let w := h.dims.tail.tail.prod
  let point := h.obj.data.getD i []
  let o ← Obj.make ((List.range d).map (fun k => (point.drop (k * w)).take w)) d w none none
  return ⟨h.dims.tail, o⟩

/-- An axis operation on points whose result is a new object: `ret._dims[1:] = self._dims[1:]`
(axis.py:1224-1226). -/
def withDims (h : HObj V) (o : Obj V) : HObj V := ⟨o.pts.len :: h.dims.tail, o⟩

/-- An object without further dimensions (base.py:197). -/
def flat2 (o : Obj V) : HObj V := ⟨[o.pts.len, o.fts.len], o⟩

/-- `obj.points[key]` (axis.py:363-374): a single identifier of an object of more than two
dimensions gives the nested object (`pointView(i).copy()`, list.py:548-555), no selection a copy,
and everything else the two dimensional copy. -/
def pointsGet (h : HObj V) : AxKey → Res (HObj V)
  | .single id => do
    let i ← h.obj.pts.getIndex id (allowFloats := true)
    let k ← pyIndex h.obj.pts.len i
    if 2 < h.dims.length then h.nested k
    else (h.obj.axisGetitem .point (.single id)).map flat2
  | .multi k => do
    let idx ← processMultiple h.obj.pts k
    match idx with
    | none => return h
    | some l => (h.obj.backendCopy .point (some l)).map flat2

/-- Functions and query strings are not supported for more than two dimensions
(axis.py:1143-1172). -/
def checkTarget (h : HObj V) : Option (Target V) → Res Unit
  | some (.pred _) => if 2 < h.dims.length then .error .ImproperObjectAction else .ok ()
  | some (.str s _) => do
    let isName ← h.obj.pts.hasName s
    if 2 < h.dims.length ∧ isName = false then .error .ImproperObjectAction else .ok ()
  | _ => .ok ()

/-- The checks of a structural call on points that come before anything else. -/
def checkSelector (h : HObj V) (sel : Selector V) : Res Unit := do
  validateStructural sel
  h.checkTarget sel.target

/-- `points.copy` (axis.py:385-398, 1133-1244). -/
def copyPts (samp : List Nat → Nat → List Nat) (h : HObj V) (sel : Selector V) : Res (HObj V) := do
  h.checkSelector sel
  let o ← (h.obj.copy samp .point sel).2
  return h.withDims o

/-- State and outcome of an operation that removes points: the returned object has the further
dimensions, the first dimension of the caller goes down (axis.py:1224-1232). -/
def removed (h : HObj V) (x : Obj V × Res (Obj V)) : HObj V × Res (HObj V) :=
  match x.2 with
  | .error e => (h, .error e)
  | .ok ret => (⟨(h.dims.headD 0 - ret.pts.len) :: h.dims.tail, x.1⟩, .ok (h.withDims ret))

/-- `points.extract` (axis.py:401-408). -/
def extractPts (samp : List Nat → Nat → List Nat) (h : HObj V) (sel : Selector V) :
    HObj V × Res (HObj V) :=
  match h.checkSelector sel with
  | .error e => (h, .error e)
  | .ok _ => h.removed (h.obj.extract samp .point sel)

/-- `points.delete` (axis.py:411-413): an extract whose result is dropped. -/
def deletePts (samp : List Nat → Nat → List Nat) (h : HObj V) (sel : Selector V) :
    HObj V × Res Unit :=
  ((h.extractPts samp sel).1, (h.extractPts samp sel).2.map (fun _ => ()))

/-- `points.retain` (axis.py:415-420): the selection, then `_referenceFrom` with its `_dims`
(base.py:5671-5680). -/
def retainPts (samp : List Nat → Nat → List Nat) (h : HObj V) (sel : Selector V) :
    HObj V × Res Unit :=
  match h.checkSelector sel with
  | .error e => (h, .error e)
  | .ok _ => match h.obj.retain samp .point sel with
    | (_, .error e) => (h, .error e)
    | (o', .ok _) => (h.withDims o', .ok ())

/-- The refusal of another number of features is an `ImproperObjectAction` for more than two
dimensions (axis.py:1316-1325). -/
def checkInsert (h g : HObj V) : Res Unit :=
  if h.obj.fts.len ≠ g.obj.fts.len ∧ 2 < h.dims.length then .error .ImproperObjectAction else .ok ()

/-- `points.insert` / `points.append` (axis.py:619-638, 1285-1325, 1480-1500): only the number of
(flattened) features is compared. -/
def insertPts (h : HObj V) (before : Option Ident) (g : HObj V) : Res (HObj V) := do
  let _ ← Obj.insertPos h.obj.pts before
  h.checkInsert g
  let o ← h.obj.insert .point before g.obj
  return h.withDims o

/-- `flatten(order)` (base.py:4103-4129). -/
def flatten (order : Order) (h : HObj V) : HObj V × Res Unit :=
  if h.obj.pts.len ≠ 0 ∧ h.obj.fts.len ≠ 0 ∧ order = .feature ∧ 2 < h.dims.length then
    (h, .error .ImproperObjectAction)
  else match h.obj.flatten order with
    | (o, .error e) => (if h.obj.pts.len = 0 ∨ h.obj.fts.len = 0 then h else flat2 o, .error e)
    | (o, .ok _) => (flat2 o, .ok ())

/-- `unflatten(dataDimensions, order)` (base.py:4182-4344) for dimensions that are not negative. -/
def unflatten (order : Order) (ds : List Nat) (h : HObj V) : Res (HObj V) :=
  if 2 < h.dims.length then .error .ImproperObjectAction
  else (h.obj.unflatten order (ds.map Int.ofNat)).map (fun o => ⟨ds, o⟩)

/-- `isIdentical` of two List objects (base.py:1809-1818). -/
def isIdentical (C : Cmp V) (h g : HObj V) : Bool :=
  if h.dims = g.dims then h.obj.isIdentical C g.obj else false

end HObj
end Nimble
