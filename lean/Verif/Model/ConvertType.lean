import Verif.Model.Create
import Verif.Model.Sparse

/-!
# `convertToType` of `nimble.data`

The conversion of features when an object is created (_createHelpers.py:1329-1372, 1705-1724, 894-972) for a list of
rows, `returnType='List'` and no `keepFeatures`; for `Sparse`, the conversion of the stored entries.

A type is something that converts a value or raises; `object` leaves values alone.  The keys of a `convertToType`
dictionary are integers and strings, its values types or `None`.
-/

namespace Nimble
variable {V T : Type}

/-- The types a user may ask for. -/
structure TypeOps (V T : Type) where
  /-- `t(value)` (or the datetime parser for a datetime type, _createHelpers.py:923-924, 961-962). -/
  conv : T → V → Res V
  /-- `t in (object, np.object_)`. -/
  isObject : T → Bool

/-- A key of a `convertToType` dictionary. -/
inductive ConvKey where
  | idx (i : Int)
  | name (s : String)
  deriving DecidableEq

/-- The `convertToType` argument. -/
inductive ConvArg (T : Type) where
  | none
  | one (t : T)
  | list (l : List (Option T))
  | dict (d : PyDict ConvKey (Option T))
  deriving DecidableEq

/-- `convertToType[ftName]`, if there is such a name and such a key. -/
def typeByName (d : PyDict ConvKey (Option T)) : Option String → Option (Option T)
  | none => none
  | some s => PyDict.get? d (.name s)

/-- `del convertToType[ftName]`. -/
def delName (d : PyDict ConvKey (Option T)) : Option String → PyDict ConvKey (Option T)
  | none => d
  | some s => PyDict.del d (.name s)

/-- One round of the loop (_createHelpers.py:1341-1356): the type of feature `i` and what is left of the dictionary. -/
def convRound [DecidableEq T] (d : PyDict ConvKey (Option T)) (i : Nat) (ftName : Option String) :
    Res (Option T × PyDict ConvKey (Option T)) :=
  match PyDict.get? d (.idx i), typeByName d ftName with
  | some x, some y =>
    if x = y then .ok (x, delName (PyDict.del d (.idx i)) ftName) else .error .InvalidArgumentValue
  | some x, none => .ok (x, PyDict.del d (.idx i))
  | none, some y => .ok (y, delName d ftName)
  | none, none => .ok (none, d)

/-- The loop over the features (_createHelpers.py:1341-1356).  Without feature names the list of the results, still
full of `None`, stands for the names. -/
def convLoop [DecidableEq T] : PyDict ConvKey (Option T) → Nat → List (Option String) →
    Res (List (Option T) × PyDict ConvKey (Option T))
  | d, _, [] => .ok ([], d)
  | d, i, n :: ns => do
    let r ← convRound d i n
    let rs ← convLoop r.2 (i + 1) ns
    return (r.1 :: rs.1, rs.2)

/-- An unused key is acceptable (_createHelpers.py:1360-1366). -/
def leftoverOk (names : Option (List (Option String))) : ConvKey → Bool
  | .idx i => match names with
    | none => false
    | some l => decide (i < l.length)
  | .name s => match names with
    | none => false
    | some l => decide (some s ∈ l)

/-- `convertToTypeDictToList` (_createHelpers.py:1329-1372): the types of the features, and what has become of the
dictionary, which is the caller's own. -/
def typesFromDict [DecidableEq T] (d : PyDict ConvKey (Option T)) (fts : AxisSt) :
    Res (List (Option T) × PyDict ConvKey (Option T)) := do
  let r ← convLoop d 0 fts.getNames
  if (PyDict.keys r.2).all (leftoverOk fts.getNamesNoGen) then return r
  else .error .InvalidArgumentValue

/-- `ValueError` and `TypeError` are reported as `InvalidArgumentValue` (_createHelpers.py:969-972). -/
def convFailure : Err → Err
  | .ValueError => .InvalidArgumentValue
  | .TypeError => .InvalidArgumentValue
  | e => e

/-- One value (_createHelpers.py:927, 965-966). -/
def convValue (K : TypeOps V T) : Option T → V → Res V
  | none, v => .ok v
  | some t, v => if K.isObject t then .ok v else (K.conv t v).mapError convFailure

/-- `zip(point, convertToType)` (_createHelpers.py:964-966). -/
def convRow (K : TypeOps V T) (types : List (Option T)) (row : List V) : Res (List V) :=
  mapRes (fun p => convValue K p.2 p.1) (row.zip types)

/-- `elementTypeConvert` with one type for a list of rows (_createHelpers.py:920-928). -/
def convAll (K : TypeOps V T) (t : T) (data : List (List V)) : Res (List (List V)) :=
  mapRes (mapRes (convValue K (some t))) data

/-- `elementTypeConvert` with a list of types for a list of rows (_createHelpers.py:960-966). -/
def convEach (K : TypeOps V T) (types : List (Option T)) (data : List (List V)) : Res (List (List V)) :=
  mapRes (convRow K types) data

/-- Replacing `_data` (_createHelpers.py:1721). -/
def withData (o : Obj V) (d : Res (List (List V))) : Res (Obj V) := do
  let rows ← d
  return { o with data := rows }

/-- A list of types: its length, and all types equal means one type (_createHelpers.py:1709-1718). -/
def convList [DecidableEq T] (K : TypeOps V T) (o : Obj V) (l : List (Option T)) : Res (Obj V) :=
  if l.length ≠ o.fts.len then .error .InvalidArgumentValue
  else match l with
    | [] => .error .IndexError
    | x :: xs =>
      if xs.all (fun y => decide (y = x)) then
        match x with
        | none => .ok o
        | some t => withData o (convAll K t o.data)
      else withData o (convEach K (x :: xs) o.data)

/-- The conversion of a new object (_createHelpers.py:1705-1721), and the argument as the caller finds it afterwards. -/
def convertObj [DecidableEq T] (K : TypeOps V T) (o : Obj V) : ConvArg T → Res (Obj V × ConvArg T)
  | .none => .ok (o, .none)
  | .one t => do
    let r ← withData o (convAll K t o.data)
    return (r, .one t)
  | .list l => do
    let r ← convList K o l
    return (r, .list l)
  | .dict d => do
    let t ← typesFromDict d o.fts
    let r ← withData o (convEach K t.1 o.data)
    return (r, .dict t.2)

/-- The transposition at the end (_createHelpers.py:1723-1724). -/
def turnedLast {A : Type} (rowsArePoints : Bool) (r : Obj V × A) : Res (Obj V × A) :=
  if rowsArePoints then .ok r
  else do
    let q ← r.1.transpose
    return (q, r.2)

/-- `nimble.data(rows, pointNames, featureNames, convertToType=…, rowsArePoints=…)`
(_createHelpers.py:1448-1726): the names are swapped first for `rowsArePoints=False`, the conversion is before the
transposition. -/
def nimbleDataConv [DecidableEq T] (C : CellOps V) (K : TypeOps V T) (pn fn : NamesArg) (arg : ConvArg T)
    (rowsArePoints : Bool) (rows : List (List V)) : Res (Obj V × ConvArg T) := do
  let o ← nimbleData C (if rowsArePoints then pn else fn) (if rowsArePoints then fn else pn) rows
  let r ← convertObj K o arg
  turnedLast rowsArePoints r

/-- `elementTypeConvert` with one type for a `Sparse` object: the stored entries only
(_createHelpers.py:908-914). -/
def convStored (K : TypeOps V T) (t : T) (c : Sp.Coo V) : Res (Sp.Coo V) := do
  let ents ← mapRes (fun (e : Sp.Ent V) => (convValue K (some t) e.val).map (fun v => { e with val := v })) c.ents
  return { c with ents := ents }

end Nimble
