import Verif.Model.Fill
import Verif.Model.Sparse

/-!
# `points.transform` / `features.transform` of Matrix and Sparse objects, with the types of the elements

`Matrix`: matrixAxis.py:129-140, 180-192, 255-267.  `Sparse`: sparseAxis.py:84-122.  Both choose the numpy dtype of
the new data from the types of the returned values (`validateAxisFunction`, _dataHelpers.py:613-696).

Simplifications: numbers are exact (no rounding of floats, no overflow of integers, `float32` rounds nothing);
functions returning dictionaries, strings or elements of other types (which are refused) and dates are left out;
a string is never converted to a number (the code below never asks for it).
-/

namespace Nimble
namespace Typed

/-- An element: a Python or numpy bool, integer or float, nan, None, a string. -/
inductive TV where
  | bool (b : Bool)
  | int (i : Int)
  | flt (q : Rat)
  | nan
  | none
  | str (s : String)
deriving DecidableEq, Repr

/-- The keys of `typeHierarchy` except None (_dataHelpers.py:676). -/
inductive Kind where
  | bool | int | float | object
deriving DecidableEq, Repr

/-- `typeHierarchy` (_dataHelpers.py:676). -/
def Kind.level : Kind → Nat
  | .bool => 0 | .int => 1 | .float => 2 | .object => 3

/-- The type of a value as `updateConvertType` sees it (_dataHelpers.py:679-690): None counts as float, what is
not in the hierarchy as object. -/
def TV.kind : TV → Kind
  | .bool _ => .bool | .int _ => .int | .flt _ => .float | .nan => .float | .none => .float | .str _ => .object

/-- `updateConvertType(valueType)` (_dataHelpers.py:677-692). -/
def updateKind (cur : Option Kind) (v : TV) : Option Kind :=
  match cur with
  | .none => some v.kind
  | some k => if v.kind = .object then some .object else if k.level < v.kind.level then some v.kind else some k

/-- The dtypes of numeric and object arrays; `int32` and `float32` stand for the numeric dtypes other than `np.int_`
and `np.float64`, which nimble also accepts (_utility.py:147-153). -/
inductive Dt where
  | bool | int | float | object | int32 | float32
deriving DecidableEq, Repr

/-- The dtype named by a Python type. -/
def Kind.dt : Kind → Dt
  | .bool => .bool | .int => .int | .float => .float | .object => .object

/-- Rounding towards zero. -/
def truncZ (q : Rat) : Int := if 0 ≤ q then q.floor else q.ceil

/-- `bool(x)`. -/
def TV.truthy : TV → Bool
  | .bool b => b | .int i => decide (i ≠ 0) | .flt q => decide (q ≠ 0) | .nan => true | .none => false
  | .str s => decide (s ≠ "")

/-- Conversion of an array to another dtype (`astype`, assignment of an array): nan becomes the smallest integer. -/
def cast : Dt → TV → TV
  | .object, v => v
  | .bool, v => .bool v.truthy
  | .int, .bool b => .int (if b then 1 else 0)
  | .int, .flt q => .int (truncZ q)
  | .int, .nan => .int (-9223372036854775808)
  | .int32, .bool b => .int (if b then 1 else 0)
  | .int32, .flt q => .int (truncZ q)
  | .int32, .nan => .int (-2147483648)
  | .float, .bool b => .flt (if b then 1 else 0)
  | .float, .int i => .flt i
  | .float, .none => .nan
  | .float32, .bool b => .flt (if b then 1 else 0)
  | .float32, .int i => .flt i
  | .float32, .none => .nan
  | _, v => v

/-- Conversion of Python objects: `np.array(values, dtype)`, `astype` of an object array.  Unlike `cast` it refuses to
make an integer of nan, None or a string. -/
def coerce (d : Dt) (v : TV) : Res TV :=
  match d, v with
  | .int, .nan => .error .ValueError
  | .int32, .nan => .error .ValueError
  | .int, .none => .error .TypeError
  | .int32, .none => .error .TypeError
  | .object, .str s => .ok (.str s)
  | .bool, .str s => .ok (.bool (s ≠ ""))
  | _, .str _ => .error .ValueError
  | d, v => .ok (cast d v)

/-- `function(view)` for the wrapped function (_dataHelpers.py:627-671): the length is checked and `convertType` is
brought up to date. -/
def wrapped (allowed : Nat) (k : Option Kind) (r : Res (List TV)) : Res (List TV × Option Kind) := do
  let w ← r
  if w.length ≠ allowed then .error .InvalidArgumentValue else return (w, w.foldl updateKind k)

/-! ## Matrix -/

/-- A Matrix: the table and the dtype of the array holding it. -/
structure TMat where
  obj : Obj TV
  dt : Dt

/-- `dtype=convertType`; None lets numpy choose, which for the empty list is float. -/
def dtOf : Option Kind → Dt
  | .none => .float
  | some k => k.dt

/-- `self._base._data.astype(d)` for an array that is not of objects. -/
def TMat.astype (m : TMat) (d : Dt) : TMat := ⟨{ m.obj with data := m.obj.data.map (·.map (cast d)) }, d⟩

/-- `_convertBaseDtype(retDtype)` (matrixAxis.py:129-140). -/
def TMat.convertBase (m : TMat) (ret : Dt) : TMat :=
  if m.dt ≠ .object ∧ ret = .object then m.astype .object
  else if m.dt = .int ∧ ret = .float then m.astype .float
  else if m.dt = .bool ∧ ret ≠ .bool then m.astype ret
  else m

/-- `self._base._data[i, :] = retArray` (matrixAxis.py:187, 262). -/
def TMat.store (m : TMat) (ax : Ax) (i : Nat) (r : List TV) : TMat :=
  ⟨m.obj.setVector ax i (r.map (cast m.dt)), m.dt⟩

/-- The loop of `_transform_implementation` (matrixAxis.py:181-187, 256-262). -/
def matLoop (f : List TV → Res (List TV)) (want : Nat → Bool) (ax : Ax) :
    List Nat → Option Kind → TMat → TMat × Res (Option Kind)
  | [], k, m => (m, .ok k)
  | i :: is, k, m =>
    if want i then
      match wrapped (m.obj.axis ax.off).len k (f (m.obj.vector ax i)) with
      | .error e => (m, .error e)
      | .ok p =>
        match p.1.mapM (coerce (dtOf p.2)) with
        | .error e => (m, .error e)
        | .ok r => matLoop f want ax is p.2 ((m.convertBase (dtOf p.2)).store ax i r)
    else matLoop f want ax is k m

/-- The end of `_transform_implementation` (matrixAxis.py:190-192, 265-267): an object array all of whose elements
were replaced becomes numeric if it can. -/
def matFinish (all : Bool) (k : Option Kind) (m : TMat) : TMat × Res Unit :=
  if m.dt = .object ∧ all = true ∧ k ≠ some .object then
    match m.obj.data.mapM (fun r => r.mapM (coerce (dtOf k))) with
    | .error e => (m, .error e)
    | .ok d => (⟨{ m.obj with data := d }, dtOf k⟩, .ok ())
  else (m, .ok ())

/-- `_transform_implementation` (matrixAxis.py:180-192, 255-267). -/
def matImpl (f : List TV → Res (List TV)) (m : TMat) (ax : Ax) (lim : Option (List Nat)) : TMat × Res Unit :=
  match matLoop f (Obj.inLimit lim) ax (List.range (m.obj.axis ax).len) .none m with
  | (m', .error e) => (m', .error e)
  | (m', .ok k) => matFinish lim.isNone k m'

/-- `transform` (axis.py:490-506) of a Matrix. -/
def matTransform (f : List TV → Res (List TV)) (m : TMat) (ax : Ax) (limitTo : Option (List Ident)) :
    TMat × Res Unit :=
  if m.obj.pts.len = 0 then (m, .error .ImproperObjectAction)
  else if m.obj.fts.len = 0 then (m, .error .ImproperObjectAction)
  else match Obj.resolveLimit (m.obj.axis ax) limitTo with
    | .error e => (m, .error e)
    | .ok lim => matImpl f m ax lim

/-! ## Sparse -/

/-- A Sparse object: the stored entries, their dtype, the two axes.  (What is recorded about the order of the entries
is dropped by `_resetSorted` and plays no part here.) -/
structure TSp where
  ents : List (Sp.Ent TV)
  dt : Dt
  pts : AxisSt
  fts : AxisSt

/-- `dtype.type(0)` (sparse.py:822, 826): what is read where nothing is stored; object arrays give the integer. -/
def zeroOf : Dt → TV
  | .bool => .bool false | .int => .int 0 | .int32 => .int 0 | .object => .int 0 | .float => .flt 0 | .float32 => .flt 0

/-- `obj[i, j]` (sparse.py:799-826). -/
def TSp.read (s : TSp) (i j : Nat) : TV :=
  ((s.ents.find? (fun e => decide (e.row = i ∧ e.col = j))).map Sp.Ent.val).getD (zeroOf s.dt)

/-- The axes. -/
def TSp.axis (s : TSp) : Ax → AxisSt
  | .point => s.pts
  | .feature => s.fts

/-- The view of point or feature `i`, as a list. -/
def TSp.vector (s : TSp) (ax : Ax) (i : Nat) : List TV :=
  (List.range (s.axis ax.off).len).map (fun j => match ax with | .point => s.read i j | .feature => s.read j i)

/-- `retVal != 0`. -/
def TV.nonzero : TV → Bool
  | .bool b => b | .int i => decide (i ≠ 0) | .flt q => decide (q ≠ 0) | _ => true

/-- The entry of the element `v` with index `p.2` on the other axis. -/
def mkEnt (ax : Ax) (i : Nat) (p : TV × Nat) : Sp.Ent TV :=
  match ax with
  | .point => ⟨i, p.2, p.1⟩
  | .feature => ⟨p.2, i, p.1⟩

/-- The entries made of one output (sparseAxis.py:102-106). -/
def vecEnts (ax : Ax) (i : Nat) (w : List TV) : List (Sp.Ent TV) :=
  (w.zipIdx.filter (fun p => p.1.nonzero)).map (mkEnt ax i)

/-- The loop of `_transform_implementation` (sparseAxis.py:96-106): the object is only read. -/
def spLoop (f : List TV → Res (List TV)) (want : Nat → Bool) (s : TSp) (ax : Ax) :
    List Nat → Option Kind → Res (List (Sp.Ent TV) × Option Kind)
  | [], k => .ok ([], k)
  | i :: is, k =>
    if want i then
      match wrapped (s.axis ax.off).len k (f (s.vector ax i)) with
      | .error e => .error e
      | .ok p => (spLoop f want s ax is p.2).map (fun q => (vecEnts ax i p.1 ++ q.1, q.2))
    else (spLoop f want s ax is k).map (fun q => (vecEnts ax i (s.vector ax i) ++ q.1, q.2))

/-- The dtype of the new data (sparseAxis.py:108-117); where it stays None numpy takes the dtype of the values, float if
there are none. -/
def retDt (base : Dt) (k : Option Kind) (limited : Bool) (empty : Bool) : Dt :=
  if limited = true ∧ (base = .object ∨ (base = .float ∧ k ≠ some .object) ∨
      (base = .int ∧ ¬(k = some .float ∨ k = some .object))) then base
  else match k with
    | some k => k.dt
    | .none => if empty then .float else base

/-- `np.array(modData, dtype=retDtype)` (sparseAxis.py:119). -/
def coerceEnt (d : Dt) (e : Sp.Ent TV) : Res (Sp.Ent TV) := (coerce d e.val).map (fun v => ⟨e.row, e.col, v⟩)

/-- `_transform_implementation` (sparseAxis.py:84-123). -/
def spImpl (f : List TV → Res (List TV)) (s : TSp) (ax : Ax) (lim : Option (List Nat)) : TSp × Res Unit :=
  match spLoop f (Obj.inLimit lim) s ax (List.range (s.axis ax).len) .none with
  | .error e => (s, .error e)
  | .ok p =>
    match p.1.mapM (coerceEnt (retDt s.dt p.2 lim.isSome p.1.isEmpty)) with
    | .error e => (s, .error e)
    | .ok ents => (⟨ents, retDt s.dt p.2 lim.isSome p.1.isEmpty, s.pts, s.fts⟩, .ok ())

/-- `transform` (axis.py:490-506) of a Sparse object. -/
def spTransform (f : List TV → Res (List TV)) (s : TSp) (ax : Ax) (limitTo : Option (List Ident)) :
    TSp × Res Unit :=
  if s.pts.len = 0 then (s, .error .ImproperObjectAction)
  else if s.fts.len = 0 then (s, .error .ImproperObjectAction)
  else match Obj.resolveLimit (s.axis ax) limitTo with
    | .error e => (s, .error e)
    | .ok lim => spImpl f s ax lim

end Typed
end Nimble
