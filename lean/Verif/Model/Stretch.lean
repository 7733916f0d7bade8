import Verif.Model.Binary

/-!
# Broadcasting: `obj.stretch` (`nimble/core/data/stretch.py`)

The element-wise function `f` stands for the operation with the source of the stretch as its first
argument (`__rsub__` etc. are the same with `f` flipped).  Conversion to numeric types, the checks
for zero division, the storage type of the result and the Sparse implementation
(`StretchSparse`, which builds the repeated operand first) are not modelled; data are dense.
-/

namespace Nimble

/-- `Stretch.__init__` (stretch.py:43-53): only non-empty one-dimensional objects. -/
def Obj.stretchable {V : Type} (s : Obj V) : Res Unit :=
  if 1 < s.pts.len ∧ 1 < s.fts.len then .error .ImproperObjectAction
  else if s.pts.len = 0 ∨ s.fts.len = 0 then .error .ImproperObjectAction
  else .ok ()

/-- `_validateEqualNames(axis, axis, opName, other)` (base.py:5946-5983) for axes that may have
different lengths: `inconsistentNames` (_dataHelpers.py:844-862) indexes each list with the
positions of the other, so lists of different lengths raise `IndexError`. -/
def stretchNameCheck (l r : AxisSt) : Res Unit :=
  match l.tbl, r.tbl with
  | some tl, some tr =>
    if tl.inv.length ≠ tr.inv.length then .error .IndexError
    else if (inconsistentNames tl.inv tr.inv).isEmpty then .ok ()
    else .error .InvalidArgumentValue
  | _, _ => .ok ()

/-- `_stretchArithmetic_validation` against a data object (stretch.py:157-183). -/
def Obj.stretchCheck {V : Type} (s other : Obj V) : Res Unit :=
  if s.pts.len = 1 ∧ s.fts.len = 1 then
    if ¬ (other.pts.len = 1 ∨ other.fts.len = 1) then .error .InvalidArgumentValueCombination
    else if 1 < other.pts.len then stretchNameCheck s.pts other.pts
    else stretchNameCheck s.fts other.fts
  else if s.pts.len = 1 then
    if s.fts.len ≠ other.fts.len then .error .InvalidArgumentValueCombination
    else stretchNameCheck s.fts other.fts
  else
    if s.pts.len ≠ other.pts.len then .error .InvalidArgumentValueCombination
    else stretchNameCheck s.pts other.pts

/-- `_stretchArithmetic_validation` against another stretch (stretch.py:145-152). -/
def Obj.stretchBothCheck {V : Type} (s t : Obj V) : Res Unit :=
  if (s.pts.len = 1 ∧ t.fts.len = 1) ∨ (s.fts.len = 1 ∧ t.pts.len = 1) then .ok ()
  else .error .ImproperObjectAction

/-- `[name + '_' + str(i + 1) for i in range(setNum)]`, `name` the first element of `l`
(stretch.py:119-121, 128-130): `None + '_'` is a `TypeError`. -/
def numberedNames (setNum : Nat) (l : Option (List (Option String))) :
    Res (Option (List (Option String))) :=
  match l with
  | some (some a :: _) =>
    .ok (some ((List.range setNum).map (fun i => some (a ++ "_" ++ Nat.repr (i + 1)))))
  | some (none :: _) => if setNum = 0 then .ok (some []) else .error .TypeError
  | some [] => .error .IndexError
  | none => .error .TypeError

/-- Python truth of a name list that may be `None`. -/
def namesTruthy : Option (List (Option String)) → Bool
  | some (_ :: _) => true
  | _ => false

/-- `getNames(sAxis, oAxis, sNum, oNum, setNum)` (stretch.py:112-133). -/
def stretchNames (oStretch : Bool) (s o : AxisSt) (sNum oNum setNum : Nat) :
    Res (Option (List (Option String))) :=
  let sNames := s.getNamesNoGen
  let oNames := o.getNamesNoGen
  if sNames = oNames then .ok sNames
  else if s.allDefaultNames ∧ oStretch ∧ oNum ≠ setNum ∧ namesTruthy oNames then
    numberedNames setNum oNames
  else if namesTruthy sNames ∧ s.allDefaultNames ∧ ¬ namesTruthy oNames then .ok sNames
  else if s.allDefaultNames then .ok oNames
  else if o.allDefaultNames ∧ (1 < sNum ∨ setNum = 1) then .ok sNames
  else if o.allDefaultNames then numberedNames setNum sNames
  else if (sNames.map List.length) = (oNames.map List.length) then .ok (mergeNames sNames oNames)
  else .ok none

/-- Length of an axis under numpy broadcasting. -/
def bdim (a b : Nat) : Nat := if a = 1 then b else a

/-- numpy broadcasting of one axis: a list of length one is repeated. -/
def bcast {α : Type} (n : Nat) : List α → List α
  | [x] => List.replicate n x
  | l => l

namespace Obj
variable {V : Type}

/-- Broadcast application of `f` (`_binaryOperations_implementation` of the dense types:
matrix.py:457-471, list.py:613-619, dataframe.py:487-540 end in numpy/pandas broadcasting). -/
def stretchData (f : V → V → V) (s o : Obj V) : List (List V) :=
  let p := bdim s.pts.len o.pts.len
  let q := bdim s.fts.len o.fts.len
  List.zipWith (List.zipWith f) ((bcast p s.data).map (bcast q)) ((bcast p o.data).map (bcast q))

/-- Setting the names of the result (`_getOutputNames` and stretch.py:217-219). -/
def stretchFinish (oStretch : Bool) (f : V → V → V) (s o : Obj V) : Res (Obj V) := do
  let pn ← stretchNames oStretch s.pts o.pts s.pts.len o.pts.len (max s.pts.len o.pts.len)
  let fn ← stretchNames oStretch s.fts o.fts s.fts.len o.fts.len (max s.fts.len o.fts.len)
  let pts ← AxisSt.setNames ⟨bdim s.pts.len o.pts.len, none⟩ (asAssign pn)
  let fts ← AxisSt.setNames ⟨bdim s.fts.len o.fts.len, none⟩ (asAssign fn)
  return ⟨stretchData f s o, pts, fts⟩

/-- `s.stretch op other` for a data object `other` (stretch.py:188-221). -/
def stretchOp (f : V → V → V) (s other : Obj V) : Res (Obj V) := do
  s.stretchable
  s.stretchCheck other
  stretchFinish false f s other

/-- `s.stretch op t.stretch` (stretch.py:188-221). -/
def stretchBoth (f : V → V → V) (s t : Obj V) : Res (Obj V) := do
  s.stretchable
  t.stretchable
  s.stretchBothCheck t
  stretchFinish true f s t

/-- `s.stretch & other` and the other logical operators for boolean data
(`_stretchLogical`, stretch.py:237-251): no names are set on the result. -/
def stretchLogical (f : V → V → V) (s other : Obj V) : Res (Obj V) := do
  s.stretchable
  s.stretchCheck other
  return ⟨stretchData f s other, ⟨bdim s.pts.len other.pts.len, none⟩,
    ⟨bdim s.fts.len other.fts.len, none⟩⟩

end Obj
end Nimble
