import Verif.Model.Match
import Verif.Model.LearnFill
import Verif.Model.Create

/-!
# `transformElements`

`Base.transformElements` (base.py:682-818), `validateElementFunction` (_dataHelpers.py:553-611) and the loops of the
back ends: `List` and `DataFrame` (list.py:139-156, dataframe.py:92-111), `Matrix` with the type of its array
(matrix.py:87-103, _dataHelpers.py:1157-1172) and `Sparse` (sparse.py:144-199, on the elements; C18 relates the stored
entries to them).  The user's function is a mathematical function: it has no state.  Objects of more than two
dimensions, datetimes and float rounding are not modelled.
-/

namespace Nimble.Elements
open Nimble.Match Nimble.LearnFill Nimble.Obj

/-- What the user passes: a dictionary, or a function of the value, or of the value and its position.  A function
returns an element, or `none`: something which is not an element. -/
inductive Fn where
  | dict (d : List (Val × Val))
  | one (f : Val → Res (Option Val))
  | three (f : Val → Nat → Nat → Res (Option Val))

/-- `_getDictionaryMappingFunction` (_dataHelpers.py:699-704). -/
def dictValue (d : List (Val × Val)) (v : Val) : Val := ((d.find? (fun p => pyEq p.1 v)).map Prod.snd).getD v

/-- The user's function at an element. -/
def Fn.call : Fn → Val → Nat → Nat → Res (Option Val)
  | .dict d, v, _, _ => .ok (some (dictValue d v))
  | .one f, v, _, _ => f v
  | .three f, v, i, j => f v i j

/-- `numRequiredArgs != 3` (_dataHelpers.py:586-594). -/
def Fn.oneArg : Fn → Bool
  | .three _ => false
  | _ => true

def zeroVal : Val := .int false 0

/-- `func(0) == 0`, exceptions caught (_dataHelpers.py:597-602). -/
def Fn.keepsZero (fn : Fn) : Bool :=
  match fn.call zeroVal 0 0 with
  | .ok (some r) => pyEq r zeroVal
  | _ => false

/-- `preserveZeros` in the end (_dataHelpers.py:586-602). -/
def Fn.preserve (fn : Fn) (preserveZeros : Bool) : Bool := preserveZeros || (fn.oneArg && fn.keepsZero)

/-- What is made of the returned value (_dataHelpers.py:565-573). -/
def checkReturn (skipNone : Bool) (v : Val) : Option Val → Res Val
  | none => .error .InvalidArgumentValue
  | some r => if r = .none ∧ skipNone = true then .ok v else .ok r

/-- `elementValidated` (_dataHelpers.py:561-573). -/
def Fn.validated (fn : Fn) (preserveZeros skipNone : Bool) (v : Val) (i j : Nat) : Res Val :=
  if fn.preserve preserveZeros = true ∧ pyEq v zeroVal = true then .ok (.flt false (.fin 0))
  else do
    let r ← fn.call v i j
    checkReturn skipNone v r

/-- `i not in points`, `j not in features` (list.py:145-148). -/
def selected (l : Option (List Nat) × Option (List Nat)) (p : Nat × Nat) : Bool := inLimit l.1 p.1 && inLimit l.2 p.2

/-- The loop of `List` and `DataFrame` (list.py:139-156, dataframe.py:92-111): the object afterwards and the
outcome. -/
def listLoop (g : Val → Nat → Nat → Res Val) (l : Option (List Nat) × Option (List Nat)) :
    List (Nat × Nat) → Obj Val → Obj Val × Res Unit
  | [], o => (o, .ok ())
  | p :: ps, o =>
    if selected l p then
      match o.elem? p.1 p.2 with
      | none => (o, .error .IndexError)
      | some v =>
        match g v p.1 p.2 with
        | .error e => (o, .error e)
        | .ok w => listLoop g l ps (setElem o p.1 p.2 w)
    else listLoop g l ps o

/-- `transformElements` of a `List` or `DataFrame` object. -/
def transformElements (fn : Fn) (preserveZeros skipNone : Bool) (points features : Limit) (o : Obj Val) :
    Obj Val × Res Unit :=
  match limits o points features with
  | .error e => (o, .error e)
  | .ok l => listLoop (fn.validated preserveZeros skipNone) l (cells o.pts.len o.fts.len) o

/-! ## Matrix -/

/-- The type of a numpy array. -/
inductive DT where
  | bool
  | int
  | float
  | obj
  deriving DecidableEq

/-- `bool(v)`. -/
def truth : Val → Bool
  | .none => false
  | .bool _ b => b
  | .int _ i => decide (i ≠ 0)
  | .flt _ (.fin q) => decide (q ≠ 0)
  | .flt _ _ => true
  | .str s => decide (s ≠ "")

/-- A stored number as a float. -/
def toFloat (v : Val) : Val :=
  match v.num with
  | some f => .flt true f
  | none => .flt true .nan

/-- `arr.astype(np.float64)` (_dataHelpers.py:1167-1168), of an array of booleans or integers. -/
def castArray (dt : DT) (v : Val) : Val :=
  match dt with
  | .float => toFloat v
  | _ => v

/-- The type of the array once the value is in it (_dataHelpers.py:1163-1168). -/
def nextType (dt : DT) (w : Val) : DT :=
  if nonNumeric w = true ∧ w ≠ .none ∧ dt ≠ .obj then .obj
  else if (floating w = true ∨ w = .none) ∧ dt ≠ .float ∧ dt ≠ .obj then .float
  else dt

/-- `arr[index] = newVal` (_dataHelpers.py:1170): the value as an array of this type stores it.  (Only integers get
into an array of integers, see `nextType`.) -/
def assign (dt : DT) (w : Val) : Val :=
  match dt with
  | .bool => .bool true (truth w)
  | .int => w
  | .float => toFloat w
  | .obj => w

/-- A `Matrix` object. -/
structure Mat where
  dt : DT
  o : Obj Val

/-- `modifyNumpyArrayValue` (_dataHelpers.py:1157-1172). -/
def Mat.modify (m : Mat) (i j : Nat) (w : Val) : Mat :=
  let dt := nextType m.dt w
  let o := if dt = m.dt then m.o else { m.o with data := m.o.data.map (List.map (castArray dt)) }
  ⟨dt, setElem o i j (assign dt w)⟩

/-- The loop of `Matrix` (matrix.py:87-103). -/
def matLoop (g : Val → Nat → Nat → Res Val) (l : Option (List Nat) × Option (List Nat)) :
    List (Nat × Nat) → Mat → Mat × Res Unit
  | [], m => (m, .ok ())
  | p :: ps, m =>
    if selected l p then
      match m.o.elem? p.1 p.2 with
      | none => (m, .error .IndexError)
      | some v =>
        match g v p.1 p.2 with
        | .error e => (m, .error e)
        | .ok w => matLoop g l ps (m.modify p.1 p.2 w)
    else matLoop g l ps m

/-- `transformElements` of a `Matrix` object. -/
def Mat.transformElements (fn : Fn) (preserveZeros skipNone : Bool) (points features : Limit) (m : Mat) :
    Mat × Res Unit :=
  match limits m.o points features with
  | .error e => (m, .error e)
  | .ok l => matLoop (fn.validated preserveZeros skipNone) l (cells m.o.pts.len m.o.fts.len) m

/-! ## Sparse -/

/-- A stored element: not zero. -/
def stored (o : Obj Val) (p : Nat × Nat) : Bool := ((o.elem? p.1 p.2).map (fun v => !pyEq v zeroVal)).getD false

/-- `wrapper` (sparse.py:157-166) with `skipNoneReturnValues=True` (sparse.py:171-173): `None` means no change. -/
def noneKeeps (g : Val → Nat → Nat → Res Val) (v : Val) (i j : Nat) : Res Val :=
  (g v i j).map (fun w => if w = .none then v else w)

/-- What `nimble.data` sees in the elements of the new array (_createHelpers.py:62, 163-170); `str` is Python's `str`.
`treatAsMissing=[None]` (base.py:1119). -/
def valOps (str : Val → String) : CellOps Val where
  asStr := fun v => match v with | .str s => some s | _ => none
  isNum := fun v => match v with | .bool np _ => !np | .int _ _ => true | .flt _ _ => true | _ => false
  toStr := fun v => match v with | .str s => s | v => str v
  missing := fun v => match v with | .none => true | .flt _ .nan => true | _ => false
  nan := .flt true .nan
  junk := .flt true .nan

/-- `nimble.data(values, returnType=optType, treatAsMissing=[None])` (base.py:1119-1120), with names detected
automatically; nothing is detected in an array without elements (_createHelpers.py:290-291). -/
def newObject (str : Val → String) (nP nF : Nat) (rows : List (List Val)) : Res (Obj Val) :=
  if nP = 0 ∨ nF = 0 then .ok ⟨rows, ⟨nP, none⟩, ⟨nF, none⟩⟩
  else nimbleData (valOps str) .auto .auto rows

/-- `self._referenceFrom(ret, pointNames=pnames, featureNames=fnames)` (sparse.py:175-177, base.py:5644-5687,
164-201): data and shape are set before the names, which can fail. -/
def referenceFrom (o ret : Obj Val) : Obj Val × Res Unit :=
  match AxisSt.init ret.pts.len o.pts.getNamesNoGen with
  | .error e => (⟨ret.data, { o.pts with len := ret.pts.len }, { o.fts with len := ret.fts.len }⟩, .error e)
  | .ok p =>
    match AxisSt.init ret.fts.len o.fts.getNamesNoGen with
    | .error e => (⟨ret.data, p, { o.fts with len := ret.fts.len }⟩, .error e)
    | .ok f => (⟨ret.data, p, f⟩, .ok ())

/-- Replace the object by a new one. -/
def replaceBy (o : Obj Val) : Res (Obj Val) → Obj Val × Res Unit
  | .error e => (o, .error e)
  | .ok ret => referenceFrom o ret

/-- The values are computed into a new array, of which a new object is made, so nothing is changed when the function
fails (sparse.py:171-177). -/
def viaNewObject (str : Val → String) (o : Obj Val) (r : Obj Val × Res Unit) : Obj Val × Res Unit :=
  match r.2 with
  | .ok _ => replaceBy o (newObject str o.pts.len o.fts.len r.1.data)
  | .error e => (o, .error e)

/-- `transformElements` of a `Sparse` object (sparse.py:144-199): only the stored elements are visited if zeros are
preserved (the entries are in the order of the points). -/
def sparseTransform (str : Val → String) (fn : Fn) (preserveZeros skipNone : Bool) (points features : Limit)
    (o : Obj Val) : Obj Val × Res Unit :=
  match limits o points features with
  | .error e => (o, .error e)
  | .ok l =>
    if fn.preserve preserveZeros then
      listLoop (fn.validated preserveZeros skipNone) l ((cells o.pts.len o.fts.len).filter (stored o)) o
    else viaNewObject str o
      (listLoop (noneKeeps (fn.validated preserveZeros skipNone)) l (cells o.pts.len o.fts.len) o)

end Nimble.Elements
