import Verif.Model.Create
import Verif.Model.MergeReps

/-!
# Names taken out of a scipy sparse matrix

`extractNamesFromScipySparse` (`nimble/core/_createHelpers.py:357-453`) and the names of the `Sparse` object made of its
result (_createHelpers.py:1611-1627, axis.py:94-108).  The matrix has no duplicate entries and no stored zeros
(`removeDuplicatesNative` is applied before, _createHelpers.py:724-728, C45).  Not modelled: the types of numpy arrays,
`keepPoints`, `keepFeatures`, `rowsArePoints=False`, replacement of missing values.
-/

namespace Nimble.Sp
variable {V : Type}

/-- Point names by index: `idxNameMap` (_createHelpers.py:404-407). -/
def idxNames (text : V → String) (c : Coo V) : PyDict Nat String :=
  PyDict.ofPairs ((c.ents.filter (fun e => decide (e.col = 0))).map (fun e => (e.row, text e.val)))

/-- `{v:k for k, v in d.items()}`. -/
def invert (d : PyDict Nat String) : PyDict String Nat := PyDict.ofPairs (d.map (fun p => (p.2, p.1)))

/-- The point names without a zero name being looked for, feature names being taken out or not
(_createHelpers.py:418-425). -/
def plainPoints (fn : Bool) (d : PyDict Nat String) : PyDict String Nat :=
  if fn then PyDict.ofPairs ((PyDict.del d 0).map (fun p => (p.2, p.1 - 1))) else invert d

/-- `retPNames` (_createHelpers.py:404-425). -/
def pointDict (text : V → String) (fn : Bool) (c : Coo V) : Res (PyDict String Nat) :=
  let d := idxNames text c
  if fn = false ∧ d.length < c.rows then
    let missing := (List.range c.rows).filter (fun i => !PyDict.has d i)
    if 1 < missing.length then .error .InvalidArgumentValue
    else .ok (PyDict.set (invert d) "0" (missing.headD 0))
  else .ok (plainPoints fn d)

/-- The matrix without its first column (_createHelpers.py:427-430). -/
def dropCol (c : Coo V) : Coo V :=
  ⟨c.rows, c.cols - 1, (c.ents.filter (fun e => decide (e.col ≠ 0))).map (fun e => ⟨e.row, e.col - 1, e.val⟩), none, none⟩

/-- `retFNames` (_createHelpers.py:433-444). -/
def featureDict (text : V → String) (c : Coo V) : Res (PyDict String Nat) :=
  let d := PyDict.ofPairs ((c.ents.filter (fun e => decide (e.row = 0))).map (fun e => (text e.val, e.col)))
  if d.length < c.cols then
    let missing := (List.range c.cols).filter (fun j => decide (j ∉ PyDict.values d))
    if 1 < missing.length then .error .InvalidArgumentValue
    else .ok (PyDict.set d "0" (missing.headD 0))
  else .ok d

/-- The matrix without its first row (_createHelpers.py:445-448). -/
def dropRow (c : Coo V) : Coo V :=
  ⟨c.rows - 1, c.cols, (c.ents.filter (fun e => decide (e.row ≠ 0))).map (fun e => ⟨e.row - 1, e.col, e.val⟩), none, none⟩

/-- Point names, if they are to be taken out (_createHelpers.py:403-430). -/
def pointStep (text : V → String) (pn fn : Bool) (c : Coo V) : Res (Option (PyDict String Nat) × Coo V) :=
  if pn then do
    let d ← pointDict text fn c
    return (some d, dropCol c)
  else .ok (none, c)

/-- Feature names, if they are to be taken out (_createHelpers.py:432-448). -/
def featureStep (text : V → String) (fn : Bool) (c : Coo V) : Res (Option (PyDict String Nat) × Coo V) :=
  if fn then do
    let d ← featureDict text c
    return (some d, dropRow c)
  else .ok (none, c)

/-- `Axis.__init__` with a dict of names (axis.py:94-106). -/
def axisOf (n : Nat) : Option (PyDict String Nat) → Res AxisSt
  | none => .ok ⟨n, none⟩
  | some d =>
    if d.length ≠ n then .error .InvalidArgumentValue
    else AxisSt.setNames ⟨n, none⟩ (.dict (d.map (fun p => (some p.1, (p.2 : Int)))))

/-- `nimble.data(matrix, pointNames=pn, featureNames=fn)` of a scipy sparse matrix. -/
def sparseData (text : V → String) (pn fn : Bool) (c : Coo V) : Res (SpObj V) := do
  let p ← pointStep text pn fn c
  let f ← featureStep text fn p.2
  if (pn = true ∧ c.cols = 0) ∨ (fn = true ∧ c.rows = 0) then .error .ValueError  -- negative shape
  else
    let pts ← axisOf f.2.rows p.1
    let fts ← axisOf f.2.cols f.1
    return ⟨f.2, pts, fts⟩

/-- A row with the zeros filled in (_createHelpers.py:382-388). -/
def filledRow [Zero V] (c : Coo V) (i : Nat) : List V :=
  c.ents.foldl (fun r e => if e.row = i then r.set e.col e.val else r) (List.replicate c.cols 0)

/-- Which names are to be taken out (_createHelpers.py:381-391).  (With `True` and `False` the detection gives these
back.) -/
def detectSparse [Zero V] (C : CellOps V) (pn fn : NamesArg) (c : Coo V) : Bool × Bool :=
  autoDetect C pn fn [filledRow c 0, filledRow c 1]

end Nimble.Sp
