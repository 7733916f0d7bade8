import Verif.Model.Insert

/-!
# Sharing between `List` objects (base.py:5391-5446, 5644-5687; list.py; listAxis.py; axis.py)

Python objects refer to mutable lists: a `List` object has `_data`, a list of rows each of which is a
list, and `_dims`, a two-element list (base.py:197).  Here every such list is a cell with an address,
so that two objects can refer to the same cell.  Names, paths and objects of more than two dimensions
are left out; the arguments are those the front ends have resolved to indices.
-/

namespace Nimble
namespace Mem
variable {V : Type}

/-- The part of a `List` object that refers to mutable lists: `_data` and `_dims`. -/
structure HObj where
  data : Nat
  dims : Nat
  deriving DecidableEq, Repr

/-- The live objects and the cells: rows, `_data` lists (of row addresses) and `_dims` lists. The
counters are the next free addresses. -/
structure Heap (V : Type) where
  objs : List HObj
  rows : Nat → List V
  nRows : Nat
  outer : Nat → List Nat
  nOuter : Nat
  dims : Nat → Nat × Nat
  nDims : Nat

/-- What can be seen of an object: `shape` (base.py:227-240, read from `_dims`) and the elements. -/
structure Tab (V : Type) where
  shape : Nat × Nat
  data : List (List V)
  deriving DecidableEq, Repr

/-- Number of points or features of a shape. -/
def sizeOf (s : Nat × Nat) : Ax → Nat
  | .point => s.1
  | .feature => s.2

/-- A shape with one number changed. -/
def setSize (s : Nat × Nat) (ax : Ax) (n : Nat) : Nat × Nat :=
  match ax with
  | .point => (n, s.2)
  | .feature => (s.1, n)

namespace Heap

/-- Storing into a cell. -/
def put {A : Type} (m : Nat → A) (a : Nat) (v : A) : Nat → A := fun b => if b = a then v else m b

/-- No objects. -/
def empty : Heap V := ⟨[], fun _ => [], 0, fun _ => [], 0, fun _ => (0, 0), 0⟩

/-- The elements of an object. -/
def contents (h : Heap V) (o : HObj) : List (List V) := (h.outer o.data).map h.rows

/-- What can be seen of an object. -/
def tab (h : Heap V) (o : HObj) : Tab V := ⟨h.dims o.dims, h.contents o⟩

/-- What can be seen of all live objects. -/
def abs (h : Heap V) : List (Tab V) := h.objs.map h.tab

/-- New row lists. -/
def allocRows (h : Heap V) (vs : List (List V)) : Heap V × List Nat :=
  ({ h with
      rows := fun a => if a < h.nRows then h.rows a else (vs[a - h.nRows]?).getD []
      nRows := h.nRows + vs.length },
   List.range' h.nRows vs.length)

/-- A new `_data` list. -/
def allocOuter (h : Heap V) (as : List Nat) : Heap V × Nat :=
  ({ h with outer := put h.outer h.nOuter as, nOuter := h.nOuter + 1 }, h.nOuter)

/-- A new `_dims` list (base.py:197: `list(shape)`). -/
def allocDims (h : Heap V) (d : Nat × Nat) : Heap V × Nat :=
  ({ h with dims := put h.dims h.nDims d, nDims := h.nDims + 1 }, h.nDims)

/-- A new object whose rows are new lists and whose `_dims` is the list at `da`. -/
def pushAt (h : Heap V) (vs : List (List V)) (da : Nat) : Heap V :=
  let r := h.allocRows vs
  let o := r.1.allocOuter r.2
  { o.1 with objs := o.1.objs ++ [⟨o.2, da⟩] }

/-- A new object with lists of its own: the `List` constructor (list.py:66-123, base.py:197). -/
def push (h : Heap V) (vs : List (List V)) (d : Nat × Nat) : Heap V :=
  let r := h.allocDims d
  r.1.pushAt vs r.2

/-- `self._data = [...]` with a new `_data` list of the given rows. -/
def assignOuter (h : Heap V) (i : Nat) (as : List Nat) : Heap V :=
  let r := h.allocOuter as
  { r.1 with objs := r.1.objs.modify i (fun o => { o with data := r.2 }) }

/-- `self._data = vs` with new row lists. -/
def assignRows (h : Heap V) (i : Nat) (vs : List (List V)) : Heap V :=
  let r := h.allocRows vs
  r.1.assignOuter i r.2

/-- `self._dims = [...]`, a new list. -/
def assignDims (h : Heap V) (i : Nat) (d : Nat × Nat) : Heap V :=
  let r := h.allocDims d
  { r.1 with objs := r.1.objs.modify i (fun o => { o with dims := r.2 }) }

/-- `self._dims[k] = ...`: the list is changed in place, for every object referring to it
(axis.py:1232, 1490, 1495). -/
def storeDims (h : Heap V) (o : HObj) (d : Nat × Nat) : Heap V :=
  { h with dims := put h.dims o.dims d }

/-- `_referenceFrom` of a temporary object with new lists (base.py:5644-5687): `__init__` keeps the
data and makes a new `_dims` list. -/
def reference (h : Heap V) (i : Nat) (vs : List (List V)) (d : Nat × Nat) : Heap V :=
  (h.assignRows i vs).assignDims i d

end Heap

/-- The operations of a history; objects are numbered in the order of their creation. `new` is
`nimble.data`, `binop`/`scalar` an arithmetic operator with an object or a number, `ibinop`/`iscalar`
its in-place form, the others the methods of that name. -/
inductive HOp (V : Type) where
  | new (ncol : Nat) (data : List (List V))
  | copy (i : Nat)
  | binop (i j : Nat) (f : V → V → V)
  | ibinop (i j : Nat) (f : V → V → V)
  | scalar (i : Nat) (f : V → V)
  | iscalar (i : Nat) (f : V → V)
  | setitem (i x y : Nat) (v : V)
  | transform (i : Nat) (f : V → V)
  | permute (i : Nat) (ax : Ax) (order : List Nat)
  | extract (i : Nat) (ax : Ax) (tgt : List Nat)
  | delete (i : Nat) (ax : Ax) (tgt : List Nat)
  | retain (i : Nat) (ax : Ax) (tgt : List Nat)
  | insert (i : Nat) (ax : Ax) (before j : Nat)
  | transpose (i : Nat)

/-- The resolved targets of a structural method: in range and without repetition. -/
def goodTargets (n : Nat) (tgt : List Nat) : Bool := tgt.all (fun k => decide (k < n)) && decide tgt.Nodup

namespace Heap

/-- The elements that are kept when `tgt` is extracted or deleted (listAxis.py:66-90): for points the
row lists stay the same lists, for features new rows are made. -/
def keepRest (h : Heap V) (i : Nat) (o : HObj) (ax : Ax) (tgt : List Nat) : Heap V :=
  let keep := (List.range (sizeOf (h.dims o.dims) ax)).filter (fun k => k ∉ tgt)
  match ax with
  | .point => h.assignOuter i (pick (h.outer o.data) keep)
  | .feature => h.assignRows i (Obj.selData .feature (h.contents o) keep)

/-- The backend and the front end of `extract` and `delete` on the object itself: the data, then
`self._base._dims[shapeIdx] -= len(retAxis)` in place (axis.py:1222-1232). -/
def takeOut (h : Heap V) (i : Nat) (o : HObj) (ax : Ax) (tgt : List Nat) : Heap V :=
  (h.keepRest i o ax tgt).storeDims o
    (setSize (h.dims o.dims) ax (sizeOf (h.dims o.dims) ax - tgt.length))

/-- `_insert_implementation` (listAxis.py:172-190, 268-292) and `_setInsertedCountAndNames`
(axis.py:1480-1495). The rows of the inserted object are copied. -/
def insertInto (h : Heap V) (i : Nat) (o : HObj) (ax : Ax) (before : Nat) (p : HObj) : Heap V :=
  let s := h.dims o.dims
  let h1 := match ax with
    | .point =>
      let r := h.allocRows (h.contents p)
      let as := h.outer o.data
      r.1.assignOuter i (if before ≠ 0 ∧ before ≠ s.1 then as.take before ++ r.2 ++ as.drop before
        else if before = 0 then r.2 ++ as else as ++ r.2)
    | .feature => h.assignRows i (Obj.insertData .feature s.2 (h.contents o) (h.contents p) before)
  h1.storeDims o (setSize s ax (sizeOf s ax + sizeOf (h.dims p.dims) ax))

/-- `_permute_implementation` (listAxis.py:101-113): points by storing into `_data`, features by
storing into every row. -/
def permuteIn (h : Heap V) (o : HObj) (ax : Ax) (order : List Nat) : Heap V :=
  match ax with
  | .point => { h with outer := put h.outer o.data (pick (h.outer o.data) order) }
  | .feature => { h with rows := fun a => if a ∈ h.outer o.data then pick (h.rows a) order else h.rows a }

/-- `_transform_implementation` (list.py:131-148) for all elements: stored into the rows. -/
def transformIn (h : Heap V) (o : HObj) (f : V → V) : Heap V :=
  { h with rows := fun a => if a ∈ h.outer o.data then (h.rows a).map f else h.rows a }

/-- `_setitem_implementation` (list.py:541-542): stored into one row. -/
def setitemIn (h : Heap V) (o : HObj) (x y : Nat) (v : V) : Heap V :=
  match (h.outer o.data)[x]? with
  | none => h
  | some a => { h with rows := put h.rows a ((h.rows a).set y v) }

/-- Lookup of an object. -/
def get (h : Heap V) (i : Nat) : Res HObj :=
  match h.objs[i]? with
  | some o => .ok o
  | none => .error .IndexError

/-- One operation. Checks of the arguments come first; a refused operation changes nothing.
An arithmetic operator makes an object with its own data but sets `ret._dims = self._dims`
(base.py:5436), the same list. -/
def step (h : Heap V) : HOp V → Res (Heap V)
  | .new ncol data =>
    if data.all (fun r => decide (r.length = ncol)) then .ok (h.push data (data.length, ncol))
    else .error .InvalidArgumentValue
  | .copy i => do                                                    -- base.py:3826-3828
    let o ← h.get i
    return h.push (h.contents o) (h.dims o.dims)
  | .binop i j f => do                                               -- base.py:5391-5446
    let o ← h.get i
    let p ← h.get j
    if h.dims o.dims ≠ h.dims p.dims then .error .InvalidArgumentValue
    else return h.pushAt (List.zipWith (List.zipWith f) (h.contents o) (h.contents p)) o.dims
  | .ibinop i j f => do
    let o ← h.get i
    let p ← h.get j
    if h.dims o.dims ≠ h.dims p.dims then .error .InvalidArgumentValue
    else return h.reference i (List.zipWith (List.zipWith f) (h.contents o) (h.contents p)) (h.dims o.dims)
  | .scalar i f => do
    let o ← h.get i
    return h.pushAt ((h.contents o).map (List.map f)) o.dims
  | .iscalar i f => do
    let o ← h.get i
    return h.reference i ((h.contents o).map (List.map f)) (h.dims o.dims)
  | .setitem i x y v => do
    let o ← h.get i
    if x < (h.dims o.dims).1 ∧ y < (h.dims o.dims).2 then return h.setitemIn o x y v
    else .error .IndexError
  | .transform i f => do
    let o ← h.get i
    return h.transformIn o f
  | .permute i ax order => do
    let o ← h.get i
    if order.isPerm (List.range (sizeOf (h.dims o.dims) ax)) then return h.permuteIn o ax order
    else .error .IndexError
  | .extract i ax tgt => do
    let o ← h.get i
    if goodTargets (sizeOf (h.dims o.dims) ax) tgt then
      return (h.takeOut i o ax tgt).push (Obj.selData ax (h.contents o) tgt)
        (setSize (h.dims o.dims) ax tgt.length)
    else .error .IndexError
  | .delete i ax tgt => do
    let o ← h.get i
    if goodTargets (sizeOf (h.dims o.dims) ax) tgt then return h.takeOut i o ax tgt
    else .error .IndexError
  | .retain i ax tgt => do                                           -- axis.py:415-420
    let o ← h.get i
    if goodTargets (sizeOf (h.dims o.dims) ax) tgt then
      return h.reference i (Obj.selData ax (h.contents o) tgt) (setSize (h.dims o.dims) ax tgt.length)
    else .error .IndexError
  | .insert i ax before j => do
    let o ← h.get i
    let p ← h.get j
    if before ≤ sizeOf (h.dims o.dims) ax ∧ sizeOf (h.dims o.dims) ax.off = sizeOf (h.dims p.dims) ax.off then
      return h.insertInto i o ax before p
    else .error .InvalidArgumentValue
  | .transpose i => do                                               -- base.py:3634-3636, list.py:159-178
    let o ← h.get i
    return h.reference i (Obj.transposeData (h.dims o.dims).2 (h.contents o))
      ((h.dims o.dims).2, (h.dims o.dims).1)

/-- A history; operations that are refused are passed over, as by a caller who catches the
exception. -/
def run (h : Heap V) : List (HOp V) → Heap V
  | [] => h
  | op :: ops => match h.step op with
    | .ok h' => run h' ops
    | .error _ => run h ops

end Heap

end Mem
end Nimble
