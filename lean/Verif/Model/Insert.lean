import Verif.Model.NameChecks

/-!
# `insert` and `append` (`nimble/core/data/axis.py:619-638`)
-/

namespace Nimble
namespace Obj
variable {V : Type}

/-- `_getIndex` for an entry of a name list, which may be `None` (axis.py:321-351: `None` is no
valid identifier). -/
def getIndexName (a : AxisSt) : Option String → Res Int
  | some s => a.getIndex (.str s)
  | none => if a.len = 0 then .error .IndexError else .error .InvalidArgumentType

/-- `constructIndicesList` applied to a list of names (_dataHelpers.py:319-331). -/
def resolveNames (a : AxisSt) : List (Option String) → Res (List Nat)
  | [] => .ok []
  | n :: ns => do
    let i ← getIndexName a n
    let rest ← resolveNames a ns
    return i.toNat :: rest

/-- `permute(names)` (axis.py:461-487) with an order given by a list of names. -/
def permuteByNames (o : Obj V) (ax : Ax) (order : List (Option String)) : Res (Obj V) := do
  let l ← resolveNames (o.axis ax) order
  if l.length ≠ (o.axis ax).len then .error .InvalidArgumentValue
  else if ¬ l.Nodup then .error .InvalidArgumentValue
  else o.applyOrder ax l

/-- `_validateReorderedNames` (axis.py:1408-1454) on the two off-axes. -/
def validateReordered (l r : AxisSt) : Res Unit :=
  if (inconsistentNames l.getNames r.getNames).length ≠ 0 then
    if l.anyDefaultNames || r.anyDefaultNames then .error .ImproperObjectAction
    else if l.getNames.any (fun n => !decide (n ∈ r.getNames)) then .error .InvalidArgumentValue
    else .ok ()
  else .ok ()

/-- `_validateEmptyNamesIntersection` (axis.py:1338-1360): do the name dicts share a key? -/
def namesIntersect (l r : NameTable) : Bool :=
  (PyDict.keys l.names).any (fun n => decide (n ∈ PyDict.keys r.names))

/-- The intersection check, made only if both axes have names (axis.py:1329-1330). -/
def validateDisjoint (l r : AxisSt) : Res Unit :=
  match l.tbl, r.tbl with
  | some tl, some tr => if namesIntersect tl tr then .error .InvalidArgumentValue else .ok ()
  | _, _ => .ok ()

/-- `_validateInsertableData` (axis.py:1285-1336) for two-dimensional nimble objects. -/
def validateInsertable (o other : Obj V) (ax : Ax) : Res Unit := do
  if (o.axis ax.off).len ≠ (other.axis ax.off).len then .error .InvalidArgumentValue
  else
    validateDisjoint (o.axis ax) (other.axis ax)
    if (o.axis ax.off).tbl.isSome && (other.axis ax.off).tbl.isSome then
      validateReordered (o.axis ax.off) (other.axis ax.off)
    else .ok ()

/-- `_alignNames` (axis.py:1456-1478). -/
def alignNames (o other : Obj V) (ax : Ax) : Res (Obj V) :=
  let l := o.axis ax.off
  let r := other.axis ax.off
  if (l.tbl.isSome && r.tbl.isSome) &&
      (!(l.allDefaultNames || r.allDefaultNames) && decide (l.getNames ≠ r.getNames)) then
    other.permuteByNames ax.off l.getNames
  else .ok other

/-- `_insert_implementation` (listAxis.py:181-197 for points, 268-290 for features). -/
def insertData (ax : Ax) (n : Nat) (data ins : List (List V)) (i : Nat) : List (List V) :=
  match ax with
  | .point =>
    if i ≠ 0 ∧ i ≠ n then data.take i ++ ins ++ data.drop i
    else if i = 0 then ins ++ data
    else data ++ ins
  | .feature =>
    if i ≠ 0 ∧ i ≠ n then
      List.zipWith (· ++ ·) (List.zipWith (· ++ ·) (data.map (·.take i)) ins) (data.map (·.drop i))
    else if i = 0 then List.zipWith (· ++ ·) ins data
    else List.zipWith (· ++ ·) data ins

/-- `_setInsertedCountAndNames` (axis.py:1480-1501). -/
def insertedAxis (a b : AxisSt) (i : Nat) : Res AxisSt :=
  if a.tbl.isNone && b.tbl.isNone then .ok ⟨a.len + b.len, none⟩
  else AxisSt.setNames ⟨a.len + b.len, a.touch.tbl⟩
    (.list (a.getNames.take i ++ b.getNames ++ a.getNames.drop i))

/-- Position before which to insert (axis.py:620-627); `none` is `append`. Float positions are not
modelled. -/
def insertPos (a : AxisSt) : Option Ident → Res Nat
  | none => .ok a.len
  | some id =>
    if id = .int a.len ∧ a.len ≠ 0 then .ok a.len
    else (a.getIndex id).map Int.toNat

/-- `insert(insertBefore, toInsert)`, or `append(toInsert)` when the position is `none`
(axis.py:619-638).  The two objects have the same representation (otherwise the code converts
`toInsert` first).  The returned object is the new state of the caller. -/
def insert (o : Obj V) (ax : Ax) (before : Option Ident) (other : Obj V) : Res (Obj V) := do
  let i ← insertPos (o.axis ax) before
  validateInsertable o other ax
  let ins ← alignNames o other ax
  let a ← insertedAxis (o.axis ax) (ins.axis ax) i
  return ({ o with data := insertData ax (o.axis ax).len o.data ins.data i } : Obj V).setAxis ax a

end Obj
end Nimble
