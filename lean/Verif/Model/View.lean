import Verif.Model.GetItem

/-!
# Views (`Base.view` base.py:2263-2426, `BaseView` views.py:38-160, `ListView`/`ListPassThrough`
list.py:541-565, 659-771, `MatrixView` matrix.py:406-428)

A view refers to its source; the operations below take the source as an argument. Only two
dimensional data is modelled. The source of a view is never a view (views.py:143: a view of a view
is made by the source).
-/

namespace Nimble

/-- The window of a view (`_pStart` .. `_fEnd`, the ends are exclusive) and its own names, which are
taken from the source when the view is made (views.py:69-89). -/
structure View where
  pStart : Nat
  pEnd : Nat
  fStart : Nat
  fEnd : Nat
  pts : AxisSt
  fts : AxisSt

/-- `pointStart` (base.py:2387-2390). -/
def viewStart (a : AxisSt) : Option Ident → Res Nat
  | none => .ok 0
  | some id => (a.getIndex id).map Int.toNat

/-- `pointEnd` (base.py:2392-2400), made exclusive. -/
def viewEnd (a : AxisSt) (start : Nat) : Option Ident → Res Nat
  | none => .ok a.len
  | some id => do
    let e ← a.getIndex id
    if e.toNat < start then .error .InvalidArgumentValueCombination
    else return e.toNat + 1

/-- `source.points.namesInverse[start:end]` when there are names (views.py:81-86). -/
def sliceNames (a : AxisSt) (s e : Nat) : Option (List (Option String)) :=
  a.getNamesNoGen.map (fun l => (l.drop s).take (e - s))

namespace Obj
variable {V : Type}

/-- `_view_implementation` (list.py:541-565) and the constructor (views.py:69-89). -/
def mkView (o : Obj V) (ps pe fs fe : Nat) : Res View := do
  let p ← AxisSt.init (pe - ps) (sliceNames o.pts ps pe)
  let f ← AxisSt.init (fe - fs) (sliceNames o.fts fs fe)
  return ⟨ps, pe, fs, fe, p, f⟩

/-- `obj.view(pointStart, pointEnd, featureStart, featureEnd)` (base.py:2329-2426). -/
def viewOf (o : Obj V) (ps pe fs fe : Option Ident) : Res View := do
  let a ← viewStart o.pts ps
  let b ← viewEnd o.pts a pe
  let c ← viewStart o.fts fs
  let d ← viewEnd o.fts c fe
  o.mkView a b c d

/-- `obj.pointView(identifier)` (base.py:2263-2294). -/
def pointView (o : Obj V) (id : Ident) : Res View := do
  if o.pts.len = 0 then .error .ImproperObjectAction
  else
    let i ← o.pts.getIndex id
    o.viewOf (some (.int i)) (some (.int i)) none none

/-- `obj.featureView(identifier)` (base.py:2297-2327). -/
def featureView (o : Obj V) (id : Ident) : Res View := do
  if o.fts.len = 0 then .error .ImproperObjectAction
  else
    let i ← o.fts.getIndex id
    o.viewOf none none (some (.int i)) (some (.int i))

end Obj

namespace View
variable {V : Type}

/-- A start or end argument of a view of a view (views.py:119-141): the identifier is looked up in
the SOURCE and the offset of the view is added. -/
def adjust (src : AxisSt) (offset : Nat) (dflt : Nat) : Option Ident → Res (Option Ident)
  | none => .ok (if src.len = 0 then none else some (.int dflt))
  | some id => (src.getIndex id).map (fun i => some (.int (i + offset)))

/-- `_view_backend` of a view (views.py:113-144). -/
def view (o : Obj V) (v : View) (ps pe fs fe : Option Ident) : Res View := do
  let a ← adjust o.pts v.pStart v.pStart ps
  let b ← adjust o.pts v.pStart (v.pEnd - 1) pe
  let c ← adjust o.fts v.fStart v.fStart fs
  let d ← adjust o.fts v.fStart (v.fEnd - 1) fe
  o.viewOf a b c d

/-- `view.pointView(identifier)` (base.py:2288-2294, views.py:113): the identifier is looked up in the
view, then `_view_backend` of the view is called with the index. -/
def pointView (o : Obj V) (v : View) (id : Ident) : Res View := do
  if v.pts.len = 0 then .error .ImproperObjectAction
  else
    let i ← v.pts.getIndex id
    View.view o v (some (.int i)) (some (.int i)) none none

/-- `view.featureView(identifier)` (base.py:2322-2327). -/
def featureView (o : Obj V) (v : View) (id : Ident) : Res View := do
  if v.fts.len = 0 then .error .ImproperObjectAction
  else
    let i ← v.fts.getIndex id
    View.view o v none none (some (.int i)) (some (.int i))

/-- `view._data[i][j]` (`ListPassThrough.__getitem__`, `FeatureViewer.__getitem__` list.py:713-764):
indices outside the window, also negative ones, are refused. -/
def get (o : Obj V) (v : View) (i j : Int) : Res V :=
  if i < 0 ∨ ((v.pEnd - v.pStart : Nat) : Int) ≤ i then .error .IndexError
  else if j < 0 ∨ ((v.fEnd - v.fStart : Nat) : Int) ≤ j then .error .IndexError
  else match o.elem? (i.toNat + v.pStart) (j.toNat + v.fStart) with
    | some x => .ok x
    | none => .error .IndexError

/-- `[source._data[i][fStart:fEnd] for i in range(pStart, pEnd)]` (list.py:681-682). -/
def rows (o : Obj V) (v : View) : List (List V) :=
  ((o.data.drop v.pStart).take (v.pEnd - v.pStart)).map
    (fun r => (r.drop v.fStart).take (v.fEnd - v.fStart))

/-- `view.copy()` (list.py:670-697). -/
def copy (o : Obj V) (v : View) : Res (Obj V) :=
  Obj.make (v.rows o) (v.pEnd - v.pStart) (v.fEnd - v.fStart) v.pts.getNamesNoGen v.fts.getNamesNoGen

/-! ## `view[x, y] = value` -/

/-- The representation of the source. -/
inductive Kind where
  | list
  | matrix

/-- `_setitem_implementation` of a view: a `ListPassThrough` gives a `FeatureViewer`, which supports
no item assignment (list.py:538-539, 702-764); the data of a `MatrixView` is a numpy slice sharing
the memory of the source (matrix.py:403-409). -/
def setElem (k : Kind) (o : Obj V) (v : View) (x y : Int) (val : V) : Obj V × Res Unit :=
  match k with
  | .list => if x < 0 ∨ ((v.pEnd - v.pStart : Nat) : Int) ≤ x then (o, .error .IndexError)
    else (o, .error .TypeError)
  | .matrix => match pyIndex (v.pEnd - v.pStart) x, pyIndex (v.fEnd - v.fStart) y with
    | .ok i, .ok j =>
      ({ o with data := o.data.modify (v.pStart + i) (fun r => r.set (v.fStart + j) val) }, .ok ())
    | .error e, _ => (o, .error e)
    | _, .error e => (o, .error e)

/-- The nested loops (base.py:2258-2260). -/
def setLoop (k : Kind) (v : View) (val : V) : List (Int × Int) → Obj V → Obj V × Res Unit
  | [], o => (o, .ok ())
  | p :: ps, o =>
    let r := setElem k o v p.1 p.2 val
    match r.2 with
    | .error e => (r.1, .error e)
    | .ok _ => setLoop k v val ps r.1

/-- `view[x, y] = value` (base.py:2238-2260, not overridden by views): the state of the source and
the outcome. -/
def setitem (k : Kind) (o : Obj V) (v : View) (x y : AxKey) (val : V) : Obj V × Res Unit :=
  match Obj.setKey v.pts x with
  | .error e => (o, .error e)
  | .ok a => match Obj.setKey v.fts y with
    | .error e => (o, .error e)
    | .ok b => match a, b with
      | .inl i, .inl j => setElem k o v i j val
      | a, b => match Obj.setIter a with
        | .error e => (o, .error e)
        | .ok xs => if xs.isEmpty then (o, .ok ()) else match Obj.setIter b with
          | .error e => (o, .error e)
          | .ok ys => setLoop k v val (Obj.cells xs ys) o

end View
end Nimble
