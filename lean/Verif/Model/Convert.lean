import Verif.Model.Create

/-!
# `copy` to Python containers, and `nimble.data` from dictionaries

`Base.copy` (base.py:3680-3869) to 'python list', 'list of dict' and 'dict of list', for objects of two
dimensions; `nimble.data` from these (_createHelpers.py:499-575, 643-671).  `np` is what `np.transpose`
makes of a nested list of cells.  Turning a `List` into an array of objects (`numpy2DArray`, _utility.py:
155-192) keeps every value (integers may become equal floats) and is left out.
-/

namespace Nimble

/-- A dictionary from names to something, in the order of insertion. -/
abbrev NameDict (A : Type) := PyDict (Option String) A

namespace Obj
variable {V : Type}

/-- `copy('python list', rowsArePoints)` (base.py:3850-3856, list.py:270-271). -/
def copyPythonList (np : List (List V) → List (List V)) (o : Obj V) (rowsArePoints : Bool) : List (List V) :=
  if rowsArePoints then o.data
  else
    let arr := np o.data
    transposeData ((arr.headD []).length) arr

/-- `copy('python list', outputAs1D=True)` (base.py:3811-3819, 3845-3848). -/
def copyList1D (o : Obj V) : Res (List V) :=
  if o.pts.len ≠ 1 ∧ o.fts.len ≠ 1 then .error .ImproperObjectAction
  else if o.pts.len = 0 ∨ o.fts.len = 0 then .ok []
  else .ok o.data.flatten

/-- `createListOfDict` (_dataHelpers.py:398-411). -/
def listOfDict (names : List (Option String)) (rows : List (List V)) : List (NameDict V) :=
  rows.map (fun r => (names.zip r).foldl (fun d p => PyDict.set d p.1 p.2) [])

/-- `createDictOfList` (_dataHelpers.py:413-424). -/
def dictOfList (names : List (Option String)) (cols : List (List V)) : NameDict (List V) :=
  (names.zip cols).foldl (fun d p => PyDict.set d p.1 p.2) []

/-- `copy('list of dict', rowsArePoints)` (base.py:3858-3868). -/
def copyListOfDict (o : Obj V) (rowsArePoints : Bool) : List (NameDict V) :=
  if rowsArePoints then listOfDict o.fts.getNames o.data
  else listOfDict o.pts.getNames (transposeData o.fts.len o.data)

/-- `copy('dict of list', rowsArePoints)` (base.py:3858-3869). -/
def copyDictOfList (o : Obj V) (rowsArePoints : Bool) : NameDict (List V) :=
  if rowsArePoints then dictOfList o.fts.getNames (transposeData o.fts.len o.data)
  else dictOfList o.pts.getNames o.data

end Obj

/-! ### nimble.data -/

variable {V : Type}

/-- `sorted(a) == sorted(b)` of lists of names, for sorted lists which exist: the same names equally often.
Lists containing None and text cannot be sorted (TypeError), which is left out. -/
def sameNames (a b : List (Option String)) : Bool := decide (a.Perm b)

/-- The names and the order in which to take the values (`_dictNames`, _createHelpers.py:643-671).  `none`:
the names stay as found but are not used (`False`). -/
def dictNames (arg : NamesArg) (found : List (Option String)) : Res (Option (List (Option String)) × List Nat) :=
  match arg with
  | .given names =>
    if names = found then .ok (some names, List.range found.length)
    else if sameNames names found then .ok (some names, names.map (fun n => found.idxOf n))
    else .error .InvalidArgumentValue
  | .no => .ok (none, List.range found.length)
  | _ => .ok (some found, List.range found.length)

/-- `row.keys() == keys`, as sets. -/
def sameKeys (a b : NameDict V) : Bool :=
  a.keys.all (fun k => decide (k ∈ b.keys)) && b.keys.all (fun k => decide (k ∈ a.keys))

/-- `[row[name] for name in ftNames]` (_createHelpers.py:565). -/
def rowValues (names : List (Option String)) (row : NameDict V) : List V :=
  names.filterMap (fun n => PyDict.get? row n)

/-- The rows of a list of dictionaries (`_extractNamesFromListOfDict`, _createHelpers.py:538-575), for
dictionaries which are not empty. -/
def listOfDictRows (fn : NamesArg) (first : NameDict V) (rest : List (NameDict V)) :
    Res (Option (List (Option String)) × List (List V)) := do
  let f ← dictNames fn first.keys
  if rest.all (sameKeys first) then
    let names := f.1.getD first.keys
    let firstRow := f.2.filterMap (fun i => (first.map Prod.snd)[i]?)
    return (f.1, firstRow :: rest.map (rowValues names))
  else .error .InvalidArgumentValue

/-- `nimble.data` of a list of dictionaries (_createHelpers.py:703-708 and what follows). -/
def nimbleDataListOfDict (C : CellOps V) (pn fn : NamesArg) (first : NameDict V) (rest : List (NameDict V)) :
    Res (Obj V) := do
  if pn = .yes then .error .InvalidArgumentValue
  else
    let e ← listOfDictRows fn first rest
    finishData C (replaceMissing C e.2) (chosenNames pn none) e.1

/-- `nimble.data` of a dictionary of lists (`_extractNamesFromDict`, _createHelpers.py:499-536): the keys are
the names of the points, the lists their values, and names of features are searched for in these. -/
def nimbleDataDictOfList (C : CellOps V) (pn fn : NamesArg) (d : NameDict (List V)) : Res (Obj V) := do
  if d.isEmpty then
    if pn = .yes then .error .InvalidArgumentValue else Obj.make [] 0 0 none none
  else
    let p ← dictNames pn d.keys
    let rows := p.2.filterMap (fun i => (d.map Prod.snd)[i]?)
    if fn = .yes then .error .InvalidArgumentValue
    else nimbleData C (match p.1 with | none => .no | some l => .given l) fn rows

end Nimble
