import Verif.Model.Names

/-!
# Data objects and structural operations

A two-dimensional nimble object in the `List` representation (`nimble/core/data/list.py`,
`listAxis.py`); the `Matrix` back end (`matrixAxis.py:55-85`) performs the same selections through
numpy fancy indexing and `np.delete`.  Objects of more than two dimensions, file paths and object
names are not modelled.

Simplification: creating default names lazily while *looking up* identifiers (axis.py:1027-1028) is
not recorded in the state by the operations of this file (`getNames()` is the same before and
after, `touch_getNames`).
-/

namespace Nimble

/-- The axis a method works on: `obj.points` or `obj.features`. -/
inductive Ax where
  | point
  | feature
  deriving DecidableEq, Repr

def Ax.off : Ax → Ax
  | .point => .feature
  | .feature => .point

/-- A data object: the rows (`List._data`), and the two axes with their lengths (`_dims`) and
names (base.py:164-201, list.py:66-131). -/
structure Obj (V : Type) where
  data : List (List V)
  pts : AxisSt
  fts : AxisSt
  deriving DecidableEq

namespace Obj
variable {V : Type}

/-- `obj._getAxis(axis)`. -/
def axis (o : Obj V) : Ax → AxisSt
  | .point => o.pts
  | .feature => o.fts

def setAxis (o : Obj V) (ax : Ax) (a : AxisSt) : Obj V :=
  match ax with
  | .point => { o with pts := a }
  | .feature => { o with fts := a }

/-- Element access `obj[i, j]` for in-range indices. -/
def elem? (o : Obj V) (i j : Nat) : Option V := (o.data[i]?).bind (·[j]?)

/-- Constructor with the shape given (`List.__init__` list.py:66-131, `Base.__init__`
base.py:164-201, `Axis.__init__` axis.py:79-108). -/
def make (data : List (List V)) (nP nF : Nat) (pn fn : Option (List (Option String))) :
    Res (Obj V) := do
  let pts ← AxisSt.init nP pn
  let fts ← AxisSt.init nF fn
  return ⟨data, pts, fts⟩

/-- Constructor inferring the shape from the rows; `hint` is the feature count used when there are
no rows (list.py:73-107, 116-120). -/
def makeFrom (data : List (List V)) (hint : Nat) (pn fn : Option (List (Option String))) :
    Res (Obj V) :=
  match data with
  | [] => make [] 0 hint pn fn
  | r :: rest => make (r :: rest) (r :: rest).length r.length pn fn

end Obj

/-- What a user supplied function receives for one point/feature: a view showing its values, its
name and the names along the other axis (axis.py:1179-1181, `AxisIterator` axis.py:1718-1740). -/
structure AxView (V : Type) where
  vals : List V
  name : Option String
  offNames : List (Option String)

/-- The `toExtract`/`toCopy`/... argument (axis.py:1143-1181): a single index, a string (an axis
name, or else a query string whose meaning — or refusal — is the outcome `query` of
`_axisQueryFunction`, axis.py:1104-1131), a list of identifiers, or a function. -/
inductive Target (V : Type) where
  | one (i : Int)
  | str (s : String) (query : Res (AxView V → Bool))
  | list (ids : List Ident)
  | pred (f : AxView V → Bool)

/-- All selector arguments of a structural call. -/
structure Selector (V : Type) where
  target : Option (Target V) := none
  start : Option Ident := none
  stop : Option Ident := none
  number : Option Int := none
  randomize : Bool := false
  limitTo : Option (List Ident) := none

/-- `constructIndicesList` (_dataHelpers.py:305-333).  The shortcut for in-range integers
(324-326) gives what `getIndex` gives. -/
def resolveIdents (a : AxisSt) : List Ident → Res (List Nat)
  | [] => .ok []
  | id :: ids => do
    let i ← a.getIndex id
    let rest ← resolveIdents a ids
    return i.toNat :: rest

/-- Resolution followed by the duplicate check (axis.py:1157-1166). -/
def resolveDistinct (a : AxisSt) (ids : List Ident) : Res (List Nat) := do
  let l ← resolveIdents a ids
  if l.Nodup then return l else .error .InvalidArgumentValue

/-- `number is not None and number < 1` (axis.py:1681). -/
def numberBad : Option Int → Bool
  | some n => decide (n < 1)
  | none => false

/-- `_validateStructuralArguments` (axis.py:1671-1700). -/
def validateStructural {V : Type} (sel : Selector V) : Res Unit :=
  if sel.target.isNone && sel.start.isNone && sel.stop.isNone && sel.number.isNone then
    .error .InvalidArgumentTypeCombination
  else if numberBad sel.number then
    .error .InvalidArgumentValue
  else if sel.number.isNone && sel.randomize then
    .error .InvalidArgumentValueCombination
  else if sel.target.isSome && (sel.start.isSome || sel.stop.isSome) then
    .error .InvalidArgumentTypeCombination
  else match sel.limitTo with
    | none => .ok ()
    | some _ => match sel.target with
      | none => .error .InvalidArgumentValueCombination
      | some (.pred _) => .ok ()
      | some _ => .error .InvalidArgumentValue

/-- `_validateStartEndRange` (axis.py:1702-1716). -/
def validateStartEnd (start stop : Int) (len : Nat) : Res Unit :=
  if start < 0 ∨ start > len then .error .InvalidArgumentValue
  else if stop < 0 ∨ stop > len then .error .InvalidArgumentValue
  else if start > stop then .error .InvalidArgumentValueCombination
  else .ok ()

/-- `start` resolved, defaulting to 0 (axis.py:1184-1187). -/
def startIndex (a : AxisSt) : Option Ident → Res Int
  | none => .ok 0
  | some id => a.getIndex id

/-- `end` resolved, defaulting to the last index (axis.py:1188-1191). -/
def stopIndex (a : AxisSt) : Option Ident → Res Int
  | none => .ok ((a.len : Int) - 1)
  | some id => a.getIndex id

/-- The range branch (axis.py:1183-1195): `list(range(start, end + 1))`. -/
def rangeTargets (a : AxisSt) (start stop : Option Ident) : Res (List Nat) := do
  let st ← startIndex a start
  let en ← stopIndex a stop
  validateStartEnd st en a.len
  return List.range' st.toNat (en + 1 - st).toNat

namespace Obj
variable {V : Type}

/-- Values of point/feature `i`. -/
def vector (o : Obj V) : Ax → Nat → List V
  | .point, i => (o.data[i]?).getD []
  | .feature, i => o.data.filterMap (·[i]?)

/-- The view of point/feature `i` handed to a function; with `limitTo` resolved to off-axis indices
`lim` the values and off-axis names are restricted to these (axis.py:1174-1181). -/
def view (o : Obj V) (ax : Ax) (lim : Option (List Nat)) (i : Nat) : AxView V :=
  let vals := o.vector ax i
  let offNames := (o.axis ax.off).getNames
  { vals := match lim with | none => vals | some l => pick vals l
    name := ((o.axis ax).getNames[i]?).join
    offNames := match lim with | none => offNames | some l => pick offNames l }

/-- Indices whose view satisfies the function (axis.py:1179-1181). -/
def matching (o : Obj V) (ax : Ax) (lim : Option (List Nat)) (f : AxView V → Bool) : List Nat :=
  (List.range (o.axis ax).len).filter (fun i => f (o.view ax lim i))

/-- The indices selected before `number` is applied (axis.py:1141-1198). -/
def baseTargets (o : Obj V) (ax : Ax) (sel : Selector V) : Res (List Nat) :=
  let a := o.axis ax
  match sel.target with
  | some (.one i) => resolveDistinct a [.int i]
  | some (.str s query) => do
    let isName ← a.hasName s                                       -- 1145
    if isName then resolveDistinct a [.str s]
    else
      let f ← query                                                -- 1154
      return o.matching ax none f
  | some (.list ids) => resolveDistinct a ids
  | some (.pred f) =>
    match sel.limitTo with
    | none => .ok (o.matching ax none f)
    | some ids => do
      let lim ← resolveDistinct (o.axis ax.off) ids
      return o.matching ax (some lim) f
  | none =>
    if sel.start.isSome || sel.stop.isSome then rangeTargets a sel.start sel.stop
    else .ok (List.range a.len)

/-- The final target list (axis.py:1138-1210).  `samp` is `pythonRandom.sample`. -/
def targets (samp : List Nat → Nat → List Nat) (o : Obj V) (ax : Ax) (sel : Selector V) :
    Res (List Nat) := do
  validateStructural sel
  let l ← o.baseTargets ax sel
  match sel.number with
  | none => return l
  | some n =>
    if n > l.length then .error .InvalidArgumentValue
    else if sel.randomize then return samp l n.toNat
    else return l.take n.toNat

/-- Data of the selected points/features (listAxis.py:66-67, 83-84). -/
def selData (ax : Ax) (data : List (List V)) (tgt : List Nat) : List (List V) :=
  match ax with
  | .point => pick data tgt
  | .feature => data.map (fun r => pick r tgt)

/-- Data of the others: `keepList` (listAxis.py:69-70, 86-90). -/
def restData (ax : Ax) (n : Nat) (data : List (List V)) (tgt : List Nat) : List (List V) :=
  selData ax data ((List.range n).filter (fun i => i ∉ tgt))

/-- Loop body: append one kept name at the next index (axis.py:1239-1241). -/
def pushName (t : NameTable) (v : Option String) : NameTable :=
  ⟨match v with
    | some s => PyDict.set t.names s t.inv.length
    | none => t.names, t.inv ++ [v]⟩

/-- The loop rebuilding the names after a removal (axis.py:1234-1242). -/
def reindexLoop (tgt : List Nat) : Nat → List (Option String) → NameTable → NameTable
  | _, [], t => t
  | idx, v :: vs, t =>
    if idx ∈ tgt then reindexLoop tgt (idx + 1) vs t
    else reindexLoop tgt (idx + 1) vs (pushName t v)

/-- Names and length of the calling object's axis after a removal (axis.py:1229-1242). -/
def removeNames (a : AxisSt) (tgt : List Nat) (removed : Nat) : AxisSt :=
  ⟨a.len - removed, a.tbl.map (fun t => reindexLoop tgt 0 t.inv ⟨[], []⟩)⟩

/-- The object made of the selected points/features (`_getStructuralNames` axis.py:1246-1253,
`_structuralBackend_implementation` listAxis.py:55-96).  `_copy` sets the off-axis names once more
to the same value (axis.py:388-393). -/
def selected (o : Obj V) (ax : Ax) (tgt : List Nat) : Res (Obj V) :=
  let names := (o.axis ax).getNamesNoGen.map (fun l => pick l tgt)
  match ax with
  | .point => makeFrom (selData .point o.data tgt) o.fts.len names o.fts.getNamesNoGen
  | .feature => makeFrom (selData .feature o.data tgt) tgt.length o.pts.getNamesNoGen names

/-- What remains in the caller (listAxis.py:68-70, 85-92; axis.py:1229-1242). -/
def remaining (o : Obj V) (ax : Ax) (tgt : List Nat) (removed : Nat) : Obj V :=
  ({ o with data := restData ax (o.axis ax).len o.data tgt } : Obj V).setAxis ax
    (removeNames (o.axis ax) tgt removed)

/-- `points.copy` / `features.copy` (axis.py:385-398, 1133-1244): caller state and result. -/
def copy (samp : List Nat → Nat → List Nat) (o : Obj V) (ax : Ax) (sel : Selector V) : Obj V × Res (Obj V) :=
  (o, do let tgt ← o.targets samp ax sel
         o.selected ax tgt)

/-- `extract` (axis.py:401-408, 1133-1244). -/
def extract (samp : List Nat → Nat → List Nat) (o : Obj V) (ax : Ax) (sel : Selector V) : Obj V × Res (Obj V) :=
  match (do let tgt ← o.targets samp ax sel
            let ret ← o.selected ax tgt
            return (tgt, ret)) with
  | .error e => (o, .error e)
  | .ok (tgt, ret) => (o.remaining ax tgt (ret.axis ax).len, .ok ret)

/-- `delete` (axis.py:411-413). -/
def delete (samp : List Nat → Nat → List Nat) (o : Obj V) (ax : Ax) (sel : Selector V) : Obj V × Res Unit :=
  match (do let tgt ← o.targets samp ax sel
            let ret ← o.selected ax tgt
            return (tgt, ret)) with
  | .error e => (o, .error e)
  | .ok (tgt, ret) => (o.remaining ax tgt (ret.axis ax).len, .ok ())

/-- `retain` (axis.py:415-420): build the selection, then `_referenceFrom` it
(base.py:5644-5687), i.e. reinitialise from its data, shape and name lists. -/
def retain (samp : List Nat → Nat → List Nat) (o : Obj V) (ax : Ax) (sel : Selector V) : Obj V × Res Unit :=
  match (do let tgt ← o.targets samp ax sel
            let ret ← o.selected ax tgt
            make ret.data ret.pts.len ret.fts.len ret.pts.getNamesNoGen ret.fts.getNamesNoGen) with
  | .error e => (o, .error e)
  | .ok o' => (o', .ok ())

/-- `count` (axis.py:423-425, 1212-1221): a condition that is a single index or an axis name is
refused after resolution. -/
def count (samp : List Nat → Nat → List Nat) (o : Obj V) (ax : Ax) (cond : Target V) (limitTo : Option (List Ident)) :
    Res Nat := do
  let tgt ← o.targets samp ax { target := some cond, limitTo := limitTo }
  match cond with
  | .one _ => .error .InvalidArgumentValue
  | .str s _ => do
    let isName ← (o.axis ax).hasName s
    if isName then .error .InvalidArgumentValue else return tgt.length
  | _ => return tgt.length

/-! ## Permuting and sorting -/

/-- `_permute_implementation` (listAxis.py:98-109). -/
def permuteData (ax : Ax) (data : List (List V)) (order : List Nat) : List (List V) :=
  selData ax data order

/-- `_permute(order)` after the order has been resolved to indices (axis.py:478-487). -/
def applyOrder (o : Obj V) (ax : Ax) (order : List Nat) : Res (Obj V) :=
  if (o.axis ax).len ≤ 1 then .ok o
  else
    let o' := { o with data := permuteData ax o.data order }
    match (o.axis ax).tbl with
    | none => .ok o'
    | some t => do
      let a ← (o.axis ax).setNames (.list (pick t.inv order))
      return o'.setAxis ax a

/-- `permute(order)` with identifiers (axis.py:461-487). -/
def permute (o : Obj V) (ax : Ax) (order : List Ident) : Res (Obj V) := do
  let l ← resolveIdents (o.axis ax) order
  if l.length ≠ (o.axis ax).len then .error .InvalidArgumentValue
  else if ¬ l.Nodup then .error .InvalidArgumentValue
  else o.applyOrder ax l

/-- `permute()` without an order: `shuffled` is what `pythonRandom.shuffle` makes of
`list(range(n))` (axis.py:462-465). -/
def permuteRandom (o : Obj V) (ax : Ax) (shuffled : List Nat) : Res (Obj V) :=
  o.applyOrder ax shuffled

/-- `sorted(enumerate(data), key=itemgetter(1), reverse=reverse)` and the resulting order
(axis.py:1272-1274).  Python's sort is stable, also with `reverse=True`; `le` is the order of the
values. -/
def sortOrder (le : V → V → Bool) (reverse : Bool) (vals : List V) : List Nat :=
  (vals.zipIdx.mergeSort (fun x y => if reverse then le y.1 x.1 else le x.1 y.1)).map Prod.snd

/-- `_sortByIdentifier(index, reverse)` for one identifier (axis.py:1268-1274).  Float keys are not
modelled. -/
def sortByOne (le : V → V → Bool) (reverse : Bool) (o : Obj V) (ax : Ax) (by' : Ident) :
    Res (Obj V) := do
  let i ← (o.axis ax.off).getIndex by'
  o.permute ax ((sortOrder le reverse (o.vector ax.off i.toNat)).map (fun (k : Nat) => .int k))

/-- `sort(by=[...], reverse)`: the keys are processed last to first (axis.py:1264-1266); an
exception leaves the object as sorted so far. -/
def sortKeys (le : V → V → Bool) (reverse : Bool) (ax : Ax) : Obj V → List Ident → Obj V × Res Unit
  | o, [] => (o, .ok ())
  | o, k :: ks => match sortByOne le reverse o ax k with
    | .error e => (o, .error e)
    | .ok o' => sortKeys le reverse ax o' ks

def sortBy (le : V → V → Bool) (reverse : Bool) (o : Obj V) (ax : Ax) (keys : List Ident) :
    Obj V × Res Unit := sortKeys le reverse ax o keys.reverse

/-- `sort()` by names (axis.py:1255-1261). -/
def sortByNames (nle : String → String → Bool) (reverse : Bool) (o : Obj V) (ax : Ax) :
    Res (Obj V) :=
  if (o.axis ax).anyDefaultNames then .error .InvalidArgumentValue
  else
    let names := (o.axis ax).getNames.filterMap id
    o.permute ax ((names.mergeSort (fun x y => if reverse then nle y x else nle x y)).map .str)

/-! ## Transpose -/

/-- `List._transpose_implementation` (list.py:165-183), written column by column instead of
appending value by value. -/
def transposeData (nF : Nat) (data : List (List V)) : List (List V) :=
  (List.range nF).map (fun j => data.filterMap (·[j]?))

/-- Argument of `setNames` from an optional list (as returned by `_getNamesNoGeneration`). -/
def asAssign : Option (List (Option String)) → Assign
  | none => .none
  | some l => .list l

/-- `transpose` (base.py:3600-3640). -/
def transpose (o : Obj V) : Res (Obj V) := do
  let pts ← AxisSt.setNames ⟨o.fts.len, o.pts.tbl⟩
    (asAssign o.fts.getNamesNoGen)
  let fts ← AxisSt.setNames ⟨o.pts.len, o.fts.tbl⟩
    (asAssign o.pts.getNamesNoGen)
  return ⟨transposeData o.fts.len o.data, pts, fts⟩

end Obj
end Nimble
