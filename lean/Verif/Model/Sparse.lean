import Verif.Model.RepeatUnique

/-!
# The `Sparse` back end (`nimble/core/data/sparse.py`, `sparseAxis.py`)

A scipy coordinate matrix with the bookkeeping nimble keeps about its internal order.  Names, views'
names, numpy dtypes (and so the truncation of a float stored into an integer array) and objects of
more than two dimensions are not represented.  `np.searchsorted` is modelled by its documented
result on sorted input, the first position whose value is not smaller.
-/

namespace Nimble
namespace Sp

/-- One stored entry: `(row[k], col[k], data[k])`. -/
structure Ent (V : Type) where
  row : Nat
  col : Nat
  val : V
  deriving DecidableEq, Repr

variable {V : Type}

/-- The coordinate along an axis (`axisLocator`, `sortPrime`; sparse.py:1236-1241). -/
def Ent.on (ax : Ax) (e : Ent V) : Nat :=
  match ax with
  | .point => e.row
  | .feature => e.col

/-- An entry from its coordinates along an axis and along the other. -/
def Ent.mkOn (ax : Ax) (p o : Nat) (v : V) : Ent V :=
  match ax with
  | .point => ⟨p, o, v⟩
  | .feature => ⟨o, p, v⟩

/-- A `Sparse` object: `_data` (a `coo_matrix`: shape and stored entries) and `_sorted`
(sparse.py:122): the axis along which the entries are sorted and, for that axis, where the entries
of each point or feature begin. -/
structure Coo (V : Type) where
  rows : Nat
  cols : Nat
  ents : List (Ent V)
  sorted : Option Ax := none
  indices : Option (List Nat) := none
  deriving DecidableEq, Repr

namespace Coo

/-- Number of points or features. -/
def size (c : Coo V) : Ax → Nat
  | .point => c.rows
  | .feature => c.cols

/-- `_resetSorted` (sparse.py:1292-1294). -/
def reset (c : Coo V) : Coo V := { c with sorted := none, indices := none }

/-- `np.searchsorted(keys, x)` on sorted keys. -/
def searchsorted (keys : List Nat) (x : Nat) : Nat := (keys.takeWhile (fun k => decide (k < x))).length

/-- The order of `np.lexsort((sortOff, sortPrime))` (sparse.py:1243). -/
def lexLe (ax : Ax) (a b : Ent V) : Bool :=
  decide (a.on ax < b.on ax) || (decide (a.on ax = b.on ax) && decide (a.on ax.off ≤ b.on ax.off))

/-- Entries sorted and flagged as such (sparse.py:1235-1250). -/
def resort (c : Coo V) (ax : Ax) : Coo V :=
  { c with ents := c.ents.mergeSort (lexLe ax), sorted := some ax, indices := none }

/-- `self._sorted['indices'] = np.searchsorted(sortedAxis, range(sortedLength + 1))`
(sparse.py:1252-1261). -/
def withIndices (c : Coo V) (ax : Ax) : Coo V :=
  { c with indices := some ((List.range (c.size ax + 1)).map (searchsorted (c.ents.map (Ent.on ax)))) }

/-- `_sortInternal(axis, setIndices, forceSort)` (sparse.py:1229-1261). -/
def sortInternal (c : Coo V) (ax : Ax) (setIndices : Bool) (force : Bool := false) : Coo V :=
  if c.sorted = some ax ∧ force = false then
    if setIndices = false ∨ c.indices.isSome then c
    else c.withIndices ax
  else if setIndices then (c.resort ax).withIndices ax
  else c.resort ax

/-- The axis used for element access (sparse.py:803-804, 830-831). -/
def accessAxis (c : Coo V) : Ax := c.sorted.getD .point

/-- `axisVal` and `offAxisVal` (sparse.py:807-814): the coordinate of `(x, y)` along an axis. -/
def along (ax : Ax) (x y : Nat) : Nat :=
  match ax with
  | .point => x
  | .feature => y

/-- The binary search for an element (sparse.py:816-824, 843-847) in an object that has been sorted
along `ax` with indices: the position of the entry, if there is one. Unpacking fewer than two indices
is a `ValueError`. -/
def locate (c : Coo V) (ax : Ax) (x y : Nat) : Res (Option Nat) :=
  let axisVal := along ax x y
  let offVal := along ax.off x y
  match c.indices.bind (fun l => l[axisVal]?), c.indices.bind (fun l => l[axisVal + 1]?) with
  | some start, some stop =>
    if start = stop then .ok none
    else
      let k := searchsorted (((c.ents.take stop).drop start).map (Ent.on ax.off)) offVal + start
      match c.ents[k]? with
      | none => .ok none
      | some e => if k < stop ∧ e.on ax.off = offVal then .ok (some k) else .ok none
  | _, _ => .error .ValueError

/-- `_getitem_implementation` (sparse.py:799-824). -/
def getitem [Zero V] (c : Coo V) (x y : Nat) : Coo V × Res V :=
  let c1 := c.sortInternal c.accessAxis true
  match c1.locate c.accessAxis x y with
  | .error e => (c1, .error e)
  | .ok none => (c1, .ok 0)
  | .ok (some k) =>
    match c1.ents[k]? with
    | some e => (c1, .ok e.val)
    | none => (c1, .error .IndexError)

/-- `_setitem_implementation` (sparse.py:826-870). -/
def setitem [Zero V] [DecidableEq V] (c : Coo V) (x y : Nat) (value : V) : Coo V × Res Unit :=
  let ax := c.accessAxis
  let c1 := c.sortInternal ax true
  match c1.locate ax x y with
  | .error e => (c1, .error e)
  | .ok (some k) =>
    if value ≠ 0 then                                                            -- 848-849
      ({ c1 with ents := c1.ents.modify k (fun e => { e with val := value }) }, .ok ())
    else                                                                         -- 850-856
      (({ c1 with ents := c1.ents.eraseIdx k } : Coo V).sortInternal ax true true, .ok ())
  | .ok none =>
    if value ≠ 0 then                                                            -- 858-870
      (({ c1 with ents := c1.ents ++ [⟨x, y, value⟩] } : Coo V).sortInternal ax true true, .ok ())
    else (c1, .ok ())

/-- `scipy.sparse.coo_matrix(array)` (sparse.py:95): the non-zero elements row by row. -/
def ofDense [Zero V] [DecidableEq V] (ncol : Nat) (data : List (List V)) : Coo V where
  rows := data.length
  cols := ncol
  ents := data.zipIdx.flatMap (fun p => p.1.zipIdx.filterMap (fun q =>
    if q.1 = 0 then none else some ⟨p.2, q.2, q.1⟩))

/-- `_transpose_implementation` (sparse.py:257-259). -/
def transpose (c : Coo V) : Coo V :=
  ({ rows := c.cols, cols := c.rows, ents := c.ents.map (fun e => ⟨e.col, e.row, e.val⟩) } : Coo V)

/-- The reverse map of `_permute_implementation` (sparseAxis.py:74-76): filled one by one, so the
last position of an index counts. -/
def reverseMap (order : List Nat) : List Nat :=
  order.zipIdx.foldl (fun r p => r.set p.1 p.2) (List.replicate order.length 0)

/-- `_permute_implementation` (sparseAxis.py:71-82). -/
def permute (c : Coo V) (ax : Ax) (order : List Nat) : Coo V :=
  let rev := reverseMap order
  ({ c with ents := c.ents.map (fun e =>
      Ent.mkOn ax ((rev[e.on ax]?).getD 0) (e.on ax.off) e.val) } : Coo V).reset

/-- `_insert_implementation` (sparseAxis.py:125-163). -/
def insert (c : Coo V) (ax : Ax) (before : Nat) (o : Coo V) : Coo V :=
  let shifted := c.ents.map (fun e =>
    if e.on ax ≥ before then Ent.mkOn ax (e.on ax + o.size ax) (e.on ax.off) e.val else e)
  let added := o.ents.map (fun e => Ent.mkOn ax (e.on ax + before) (e.on ax.off) e.val)
  match ax with
  | .point => { rows := c.rows + o.rows, cols := c.cols, ents := shifted ++ added }
  | .feature => { rows := c.rows, cols := c.cols + o.cols, ents := shifted ++ added }

/-- The selected vectors (sparseAxis.py:266-271; the csr/csc selection of 220-235 lists the entries
vector by vector in the same way). -/
def selEnts (ax : Ax) (ents : List (Ent V)) (tgt : List Nat) : List (Ent V) :=
  tgt.zipIdx.flatMap (fun p => (ents.filter (fun e => decide (e.on ax = p.1))).map
    (fun e => Ent.mkOn ax p.2 (e.on ax.off) e.val))

/-- The shape after selecting along an axis (`_calcShapes`, sparseAxis.py). -/
def withSize (c : Coo V) (ax : Ax) (n : Nat) : Nat × Nat :=
  match ax with
  | .point => (n, c.cols)
  | .feature => (c.rows, n)

/-- The returned object of `_structuralBackend_implementation` (sparseAxis.py:51-69, 209-308). -/
def select (c : Coo V) (ax : Ax) (tgt : List Nat) : Coo V where
  rows := (c.withSize ax tgt.length).1
  cols := (c.withSize ax tgt.length).2
  ents := selEnts ax c.ents tgt

/-- What stays in the object when the structure is not `copy` (sparseAxis.py:214-218, 231-233,
277-298). -/
def remaining (c : Coo V) (ax : Ax) (tgt : List Nat) : Coo V :=
  c.select ax ((List.range (c.size ax)).filter (fun i => i ∉ tgt))

/-- `_repeat_implementation` (sparseAxis.py:165-203). -/
def «repeat» (c : Coo V) (ax : Ax) (k : Nat) (vectorByVector : Bool) : Coo V where
  rows := (c.withSize ax (c.size ax * k)).1
  cols := (c.withSize ax (c.size ax * k)).2
  ents :=
    if vectorByVector then c.ents.flatMap (fun e => (List.range k).map (fun i =>
      Ent.mkOn ax (i + k * e.on ax) (e.on ax.off) e.val))
    else (List.range k).flatMap (fun i => c.ents.map (fun e =>
      Ent.mkOn ax (e.on ax + c.size ax * i) (e.on ax.off) e.val))

/-- The loop of `_unique_implementation` (sparseAxis.py:330-348) over the vectors: the indices
kept. -/
def uniqueIdx [DecidableEq V] (ax : Ax) (ents : List (Ent V)) :
    List Nat → List (List (V × Nat)) → List Nat
  | [], _ => []
  | i :: is, seen =>
    let key := (ents.filter (fun e => decide (e.on ax = i))).map (fun e => (e.val, e.on ax.off))
    if key ∈ seen then uniqueIdx ax ents is seen
    else i :: uniqueIdx ax ents is (key :: seen)

/-- `_unique_implementation` (sparseAxis.py:310-374): the data given to `nimble.data`. -/
def unique [DecidableEq V] (c : Coo V) (ax : Ax) : Coo V :=
  let c1 := c.sortInternal ax false
  c1.select ax (uniqueIdx ax c1.ents (List.range (c1.size ax)) [])

/-- `_isIdentical_implementation` for two objects that are not views (sparse.py:261-287): both
objects, which may get sorted, and the answer. -/
def isIdentical [DecidableEq V] (c d : Coo V) : Coo V × Coo V × Bool :=
  if c.rows ≠ d.rows ∨ c.cols ≠ d.cols then (c, d, false)
  else if c.ents.length ≠ d.ents.length then (c, d, false)
  else
    let ax := c.sorted.getD .feature
    let c1 := if c.sorted.isNone then c.sortInternal .feature false else c
    let d1 := if d.sorted = some ax then d else d.sortInternal ax false
    (c1, d1, decide (c1.ents = d1.ents))

/-- `_containsZero_implementation` (sparse.py:1020-1025). -/
def containsZero (c : Coo V) : Bool := decide (c.rows * c.cols > c.ents.length)

/-- `_replaceRectangle_zeros_implementation` (sparse.py:581-610): the recorded order and indices are
kept. -/
def replaceZeros (c : Coo V) (p0 f0 p1 f1 : Nat) : Coo V :=
  { c with ents := c.ents.filter (fun e =>
      !(decide (p0 ≤ e.row) && decide (e.row ≤ p1) && decide (f0 ≤ e.col) && decide (e.col ≤ f1))) }

/-- `SparseView._copy_implementation('Sparse')` (sparse.py:1331-1350): the window
`[p0, p1) × [f0, f1)`. -/
def window (c : Coo V) (p0 p1 f0 f1 : Nat) : Coo V where
  rows := p1 - p0
  cols := f1 - f0
  ents := (c.ents.filter (fun e =>
    decide (e.row ≥ p0) && decide (e.row < p1) && decide (e.col ≥ f0) && decide (e.col < f1))).map
      (fun e => ⟨e.row - p0, e.col - f0, e.val⟩)

/-- The view of one point or feature (sparse.py:892-958, two dimensions): `i` the point or feature,
`[s0, s1)` the range on the other axis. -/
def vectorView (c : Coo V) (ax : Ax) (i s0 s1 : Nat) : Coo V × Res (Coo V) :=
  let c1 := c.sortInternal ax true
  match c1.indices.bind (fun l => l[i]?), c1.indices.bind (fun l => l[i + 1]?) with
  | some start, some stop =>
    let sec := ((c1.ents.take stop).drop start)
    let whole := decide (s0 = 0 ∧ s1 = c1.size ax.off)
    let a := if whole then 0 else searchsorted (sec.map (Ent.on ax.off)) s0
    let b := if whole then sec.length else searchsorted (sec.map (Ent.on ax.off)) s1
    let part := (sec.take b).drop a
    (c1, .ok
      { rows := match ax with | .point => 1 | .feature => s1 - s0
        cols := match ax with | .point => s1 - s0 | .feature => 1
        ents := part.map (fun e => Ent.mkOn ax 0 (e.on ax.off - s0) e.val) })
  | _, _ => (c1, .error .ValueError)

/-- `_transformEachElement_zeroPreserve_implementation` (sparse.py:179-199) for all elements. -/
def transformStored [Zero V] [DecidableEq V] (c : Coo V) (f : V → V) : Coo V :=
  { c with
    ents := (c.ents.map (fun e => { e with val := f e.val })).filter (fun e => decide (e.val ≠ 0)) }

/-- `_scalarZeroPreservingBinary_implementation` (sparse.py:1206-1222), `f` the operation with the
scalar. -/
def scalarStored [Zero V] [DecidableEq V] (c : Coo V) (f : V → V) : Coo V :=
  { rows := c.rows, cols := c.cols,
    ents := (c.ents.map (fun e => { e with val := f e.val })).filter (fun e => decide (e.val ≠ 0)) }

/-- The count of zeros of `_countUnique_implementation` (sparse.py:251-254). -/
def zeroCount (c : Coo V) : Nat := c.rows * c.cols - c.ents.length

/-- `np.mod(selfData.data, otherData.data)` and the rest of `_genericMod_implementation`
(sparse.py:1181-1204) for `self % other`: the stored values are paired by position.  Arrays of
different lengths do not broadcast unless one has a single value. -/
def genericMod [Zero V] [DecidableEq V] (md : V → V → V) (c d : Coo V) : Res (Coo V) :=
  let ax := c.sorted.getD .point
  let c1 := c.sortInternal ax false
  let d1 := d.sortInternal ax false
  let xs := c1.ents.map Ent.val
  let ys := d1.ents.map Ent.val
  let vals : Res (List V) :=
    if xs.length = ys.length then .ok (List.zipWith md xs ys)
    else match ys with
      | [y] => .ok (xs.map (fun x => md x y))
      | _ => .error .ValueError  -- also for a single `x`: the result does not fit the coordinates
  match vals with
  | .error e => .error e
  | .ok vs =>
    .ok { rows := c.rows, cols := c.cols,
          ents := (List.zipWith (fun e v => ({ e with val := v } : Ent V)) c1.ents vs).filter
            (fun e => decide (e.val ≠ 0)) }

end Coo
end Sp
end Nimble
