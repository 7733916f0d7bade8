import Verif.Model.Sparse

/-!
# `replaceRectangle` (base.py:3880-3998, list.py:333-342, sparse.py:408-610)
-/

namespace Nimble
variable {V : Type}

/-- `row[start:stop] = fill` for a Python list; `start` is not negative. -/
def sliceAssign (row fill : List V) (start stop : Nat) : List V :=
  row.take start ++ fill ++ row.drop (max start stop)

/-- The loop over `range(pointStart, pointEnd + 1)` of `List._replaceRectangle_implementation`
(list.py:337-342): `fills` are the remaining rows to store, `none` where `replaceWith` has no such
row.  An exception leaves the rows written so far. -/
def replaceRows (fs feExcl : Nat) : Nat → List (Option (List V)) → List (List V) →
    List (List V) × Res Unit
  | _, [], data => (data, .ok ())
  | p, f :: rest, data =>
    match f, data[p]? with
    | some fill, some row => replaceRows fs feExcl (p + 1) rest (data.set p (sliceAssign row fill fs feExcl))
    | _, _ => (data, .error .IndexError)

/-- The argument `replaceWith`: a number or an object. -/
inductive ReplaceWith (V : Type) where
  | const (v : V)
  | obj (o : Obj V)

/-- The last index of the rectangle (exclusive) on one axis when `replaceWith` is an object with
`size` points (features): with no end given the code uses `dflt` (base.py:3955-3975). -/
def rectEnd (a : AxisSt) (start : Nat) (stop : Option Ident) (size dflt : Nat) : Res Nat :=
  match stop with
  | none => .ok (start + dflt)
  | some id => match a.getIndex id with
    | .error e => .error e
    | .ok i =>
      if (size : Int) ≠ i - start + 1 then .error .InvalidArgumentValueCombination
      else .ok (start + size)

/-- The end (exclusive) for a constant (base.py:3978-3994). -/
def constEnd (a : AxisSt) (stop : Option Ident) : Res Nat :=
  match stop with
  | none => .error .InvalidArgumentValue
  | some id => (a.getIndex id).map (fun i => i.toNat + 1)

/-- The rectangle `(ps, fs, pe, fe)` (ends exclusive) to be replaced (base.py:3950-3998).  When no
`featureEnd` is given the number of *points* of `replaceWith` is used (base.py:3967). The order of the
checks of the two ends for a constant is that of the code: both missing ends first. -/
def rectBounds (o : Obj V) (w : ReplaceWith V) (ps fs : Nat) (pe fe : Option Ident) :
    Res (Nat × Nat) :=
  match w with
  | .obj r => do
    let pEnd ← rectEnd o.pts ps pe r.pts.len r.pts.len
    let fEnd ← rectEnd o.fts fs fe r.fts.len r.pts.len
    return (pEnd, fEnd)
  | .const _ => do
    if pe.isNone || fe.isNone then .error .InvalidArgumentValue
    else
      let pEnd ← constEnd o.pts pe
      let fEnd ← constEnd o.fts fe
      if ps ≥ pEnd then .error .InvalidArgumentValueCombination
      else if fs ≥ fEnd then .error .InvalidArgumentValueCombination
      else return (pEnd, fEnd)

/-- The rows to store (list.py:335-342). -/
def rectFills (w : ReplaceWith V) (ps fs pEnd fEnd : Nat) : List (Option (List V)) :=
  match w with
  | .const v => (List.range (pEnd - ps)).map (fun _ => some (List.replicate (fEnd - fs) v))
  | .obj r => (List.range (pEnd - ps)).map (fun k => r.data[k]?)

/-- `replaceRectangle` of a `List` object (base.py:3880-3998, list.py:333-342).  That a constant
looks numeric and the type conversion of `replaceWith` are not modelled. -/
def Obj.replaceRectangle (o : Obj V) (w : ReplaceWith V) (pointStart featureStart : Ident)
    (pointEnd featureEnd : Option Ident) : Obj V × Res Unit :=
  match o.pts.getIndex pointStart with
  | .error e => (o, .error e)
  | .ok ps => match o.fts.getIndex featureStart with
    | .error e => (o, .error e)
    | .ok fs => match rectBounds o w ps.toNat fs.toNat pointEnd featureEnd with
      | .error e => (o, .error e)
      | .ok b =>
        let r := replaceRows fs.toNat b.2 ps.toNat (rectFills w ps.toNat fs.toNat b.1 b.2) o.data
        ({ o with data := r.1 }, r.2)

/-! ## Sparse -/

namespace Sp
namespace Coo

/-- The state of the walk: the arrays of `self` (overwritten in place), the entries to add at the end
and the three indices (sparse.py:421-428). -/
structure Walk (V : Type) where
  arr : List (Ent V)
  add : List (Ent V)
  copy : Nat
  selfIdx : Nat
  valsIdx : Nat

/-- The replacement values: how many there are, and for each its row relative to the rectangle as a
fraction (`locationVP` of a constant is `valsIdx / width`, a float; sparse.py:483), its column and
its value. Exact arithmetic; the row stored in an integer array is the integer part. -/
structure Vals (V : Type) where
  num : Nat → Nat
  den : Nat
  col : Nat → Nat
  val : Nat → V
  stop : Nat

/-- The entry stored for a replacement value. -/
def Vals.ent (r : Vals V) (p0 f0 k : Nat) : Ent V := ⟨p0 + r.num k / r.den, f0 + r.col k, r.val k⟩

/-- The values of a constant rectangle (sparse.py:430-433, 480-484). -/
def constVals (p0 f0 p1 f1 : Nat) (v : V) : Vals V where
  num := fun k => k
  den := f1 - f0 + 1
  col := fun k => k % (f1 - f0 + 1)
  val := fun _ => v
  stop := (p1 - p0 + 1) * (f1 - f0 + 1)

/-- The values of an object sorted by points (sparse.py:434-435, 485-491). Beyond the end the location
is out of reach and the value of the last iteration is left over (never stored, shown by the
theorems). -/
def objVals [Zero V] (p1 f1 : Nat) (ents : List (Ent V)) : Vals V where
  num := fun k => match ents[k]? with | some e => e.row | none => p1 + 1
  den := 1
  col := fun k => match ents[k]? with | some e => e.col | none => f1 + 1
  val := fun k => match ents[k]? with | some e => e.val | none => 0
  stop := ents.length

/-- `trueCmp` (sparse.py:466-495): the sign of the difference of the locations. -/
def trueCmp (p0 f0 p1 f1 selfEnd : Nat) (r : Vals V) (w : Walk V) (e : Option (Ent V)) : Int :=
  let loc : Nat × Nat := if w.selfIdx < selfEnd then
      (match e with | some e => (e.row, e.col) | none => (p1 + 1, f1 + 1))
    else (p1 + 1, f1 + 1)
  let pCmp : Int := ((loc.1 : Int) - p0) * r.den - r.num w.valsIdx
  let fCmp : Int := (loc.2 : Int) - (f0 + r.col w.valsIdx)
  if pCmp ≠ 0 then pCmp else fCmp

/-- One iteration (sparse.py:466-534). -/
def walkStep (p0 f0 p1 f1 selfEnd : Nat) (r : Vals V) (w : Walk V) : Res (Walk V) :=
  let e := w.arr[w.selfIdx]?
  let t := trueCmp p0 f0 p1 f1 selfEnd r w e
  let n := r.ent p0 f0 w.valsIdx
  if t > 0 then
    if w.copy < w.selfIdx then
      .ok { w with arr := w.arr.set w.copy n, copy := w.copy + 1, valsIdx := w.valsIdx + 1 }
    else .ok { w with add := w.add ++ [n], valsIdx := w.valsIdx + 1 }
  else if t < 0 then
    match e with
    | none => .error .IndexError
    | some e =>
      if e.col < f0 ∨ e.col > f1 then
        .ok { w with arr := w.arr.set w.copy e, copy := w.copy + 1, selfIdx := w.selfIdx + 1 }
      else .ok { w with selfIdx := w.selfIdx + 1 }
  else .ok { w with arr := w.arr.set w.copy n, copy := w.copy + 1, selfIdx := w.selfIdx + 1,
                    valsIdx := w.valsIdx + 1 }

/-- The loop (sparse.py:465); a walk that does not end within the number of entries and values is
reported as an error. -/
def walk (p0 f0 p1 f1 selfEnd : Nat) (r : Vals V) : Nat → Walk V → Res (Walk V)
  | fuel, w =>
    if w.selfIdx < selfEnd ∨ w.valsIdx < r.stop then
      match fuel with
      | 0 => .error .RuntimeError
      | fuel + 1 => match walkStep p0 f0 p1 f1 selfEnd r w with
        | .error e => .error e
        | .ok w' => walk p0 f0 p1 f1 selfEnd r fuel w'
    else .ok w

/-- Where the walk starts (sparse.py:440-460): the first entry from index `k` on whose feature is in
the range, or `selfEnd` when there is none. -/
def walkStart (f0 f1 p1 selfEnd : Nat) (arr : List (Ent V)) : Nat → Nat → Res Nat
  | 0, k => .ok k
  | fuel + 1, k => match arr[k]? with
    | none => .error .IndexError
    | some e =>
      if e.col < f0 ∨ e.col > f1 then
        if e.row > p1 ∨ k = arr.length - 1 then .ok selfEnd
        else walkStart f0 f1 p1 selfEnd arr fuel (k + 1)
      else .ok k

/-- The remaining entries are moved down and the others appended (sparse.py:536-566): the loop copies
`arr[selfIdx:]` to `copyIndex`. -/
def walkFinish (c : Coo V) (w : Walk V) : Coo V :=
  { rows := c.rows, cols := c.cols,
    ents := (if w.copy ≠ w.selfIdx then w.arr.take w.copy ++ w.arr.drop w.selfIdx else w.arr) ++ w.add }

/-- `_replaceRectangle_implementation` after the values have been prepared (sparse.py:421-568); the
bounds are inclusive. -/
def replaceVals [Zero V] (c : Coo V) (p0 f0 p1 f1 : Nat) (r : Vals V) : Coo V × Res Unit :=
  let c1 := c.sortInternal .point true
  match c1.indices.bind (fun l => l[p0]?), c1.indices.bind (fun l => l[p1 + 1]?) with
  | some first, some selfEnd =>
    match (if c1.ents.length > 0 then walkStart f0 f1 p1 selfEnd c1.ents (c1.ents.length + 1) first
        else .ok 0) with
    | .error e => (c1, .error e)
    | .ok k =>
      match walk p0 f0 p1 f1 selfEnd r (selfEnd + r.stop)
          { arr := c1.ents, add := [], copy := k, selfIdx := k, valsIdx := 0 } with
      | .error e => (c1, .error e)
      | .ok w => (c1.walkFinish w, .ok ())
  | _, _ => (c1, .error .IndexError)

/-- `Sparse._replaceRectangle_implementation` (sparse.py:408-568) with a constant. -/
def replaceConst [Zero V] [DecidableEq V] (c : Coo V) (p0 f0 p1 f1 : Nat) (v : V) : Coo V × Res Unit :=
  if v = 0 then (c.replaceZeros p0 f0 p1 f1, .ok ())
  else c.replaceVals p0 f0 p1 f1 (constVals p0 f0 p1 f1 v)

/-- `Sparse._replaceRectangle_implementation` with another Sparse object (which is sorted by it). -/
def replaceObj [Zero V] (c o : Coo V) (p0 f0 p1 f1 : Nat) : Coo V × Res Unit :=
  c.replaceVals p0 f0 p1 f1 (objVals p1 f1 (o.sortInternal .point false).ents)

end Coo
end Sp
end Nimble
