import Verif.Model.Create

/-!
# `keepPoints`, `keepFeatures` and `rowsArePoints` of `nimble.data`

`initDataObject` (_createHelpers.py:1448-1726) for a list of rows, as in `Model/Create.lean`, now with the
`keepPoints`, `keepFeatures` and `rowsArePoints` arguments.  Not modelled: `convertToType`, names given as
dictionaries, the order in which two different complaints about the same call are raised when both apply.
-/

namespace Nimble
variable {V : Type}

/-- `convertData` and the constructor when the names used for the shape of an empty source (`lenP`, `lenF` of them,
_createHelpers.py:783-828) are not the names the object is made with (1615-1627). -/
def convertShaped (C : CellOps V) (rows : List (List V)) (lenP lenF : Nat) (pn fn : Option (List (Option String))) :
    Res (Obj V) :=
  match rows with
  | [] => Obj.make (emptyRows C lenP lenF) lenP lenF pn fn
  | [] :: rest => Obj.make (emptyRows C (rest.length + 1) lenF) (rest.length + 1) lenF pn fn
  | (v :: r) :: rest => Obj.make ((v :: r) :: rest) (rest.length + 1) (r.length + 1) pn fn

/-- `x == y` for two members of a keep list: a float equals the integer of the same value. -/
def identEq : Ident → Ident → Bool
  | .int i, .int j => i == j
  | .str s, .str t => s == t
  | .flt p, .flt q => p == q
  | .int i, .flt q => (i : Rat) == q
  | .flt q, .int i => q == (i : Rat)
  | _, _ => false

/-- `_checkForDuplicates` (_createHelpers.py:2556-2566). -/
def checkDuplicates : List Ident → Res Unit
  | [] => .ok ()
  | x :: xs => if xs.any (identEq x) then .error .InvalidArgumentValue else checkDuplicates xs

/-- `if keepPoints != 'all': _checkForDuplicates(keepPoints)` (_createHelpers.py:1465-1470). -/
def checkKeep : Option (List Ident) → Res Unit
  | none => .ok ()
  | some ids => checkDuplicates ids

/-- `_keepIndexValuesValidation` (_createHelpers.py:2569-2592): only non-negative numbers. -/
def indexValuesOnly : List Ident → Res Unit
  | [] => .ok ()
  | .str _ :: _ => .error .InvalidArgumentValue
  | .int i :: xs => if i < 0 then .error .InvalidArgumentValue else indexValuesOnly xs
  | .flt q :: xs => if q < 0 then .error .InvalidArgumentValue else indexValuesOnly xs

/-- `getKeepIndexValues` (_createHelpers.py:1306-1327); `cleaned` is the accumulator. -/
def keepIndices (a : AxisSt) : List Nat → List Ident → Res (List Nat)
  | cleaned, [] => .ok cleaned
  | cleaned, id :: ids => do
    let i ← a.getIndex id
    if i.toNat ∈ cleaned then .error .InvalidArgumentValue
    else keepIndices a (cleaned ++ [i.toNat]) ids

/-- `indexGetter` of `makeCmp` (_createHelpers.py:1629-1635) on the name of the view it is given: an unnamed point
is looked up as `None` (axis.py:345-350). -/
def indexOfName (a : AxisSt) : Option String → Res Int
  | none => .error .InvalidArgumentType
  | some s => a.getIndex (.str s)

/-- `indexGetter` of every view. -/
def indicesOfNames (a : AxisSt) : List (Option String) → Res (List Nat)
  | [] => .ok []
  | n :: ns => do
    let i ← indexOfName a n
    let rest ← indicesOfNames a ns
    return i.toNat :: rest

/-- `sorted(…, key=cmp_to_key(retCmp))` (axis.py:1276-1279, _createHelpers.py:1636-1650): `keys[i]` is the index
`indexGetter` gives for the `i`-th view, `positions` is `cleaned` read backwards. -/
def keepOrder (cleaned keys : List Nat) : List Nat :=
  (keys.zipIdx.mergeSort (fun x y => decide (cleaned.idxOf x.1 ≤ cleaned.idxOf y.1))).map Prod.snd

/-- `ret.points.sort(by=pCmp)` (_createHelpers.py:1665-1667, axis.py:446-458, 1276-1279).  With fewer than two points
the comparator is never called. -/
def Obj.keepSort (o : Obj V) (ax : Ax) (cleaned : List Nat) : Res (Obj V) :=
  if (o.axis ax).len ≤ 1 then .ok o
  else do
    let keys ← indicesOfNames (o.axis ax) (o.axis ax).getNames
    o.permute ax ((keepOrder cleaned keys).map (fun (k : Nat) => .int k))

/-- `isinstance(pointNames, (list, dict)) and len(pointNames) == numPts` (_createHelpers.py:1658, 1678-1679). -/
def allNamed (n : Nat) : Option (List (Option String)) → Bool
  | none => false
  | some l => l.length == n

/-- `ret.points.setNames(names)` for a list or `None`/`False`. -/
def Obj.nameAxis (o : Obj V) (ax : Ax) (names : Option (List (Option String))) : Res (Obj V) := do
  let a ← (o.axis ax).setNames (Obj.asAssign names)
  return o.setAxis ax a

/-- Reordering or copying, once the indices are known (_createHelpers.py:1665-1669, 1696-1700). -/
def Obj.keepSelect (o : Obj V) (ax : Ax) (cleaned : List Nat) : Res (Obj V) :=
  if cleaned.length = (o.axis ax).len then o.keepSort ax cleaned
  else (o.copy (fun l _ => l) ax { target := some (.list (cleaned.map (fun (k : Nat) => .int k))) }).2

/-- One axis limited to the kept points or features (_createHelpers.py:1653-1672, 1673-1703).  `extracted` is
`ptsExtracted`/`ftsExtracted`, `names` the names in the end. -/
def Obj.keepAxis (o : Obj V) (ax : Ax) (extracted : Bool) (names : Option (List (Option String))) :
    Option (List Ident) → Res (Obj V)
  | none => .ok o
  | some ids =>
    if extracted = false ∧ ids.length = (o.axis ax).len then .error .InvalidArgumentValue
    else if allNamed (o.axis ax).len names then do
      let o1 ← o.nameAxis ax names
      let cleaned ← keepIndices (o1.axis ax) [] ids
      o1.keepSelect ax cleaned
    else do
      indexValuesOnly ids
      let cleaned ← keepIndices (o.axis ax) [] ids
      let o1 ← o.keepSelect ax cleaned
      o1.nameAxis ax names

/-- The names the object is made with: none yet if they may be for the kept points only
(_createHelpers.py:1617-1624). -/
def namesNow (names : Option (List (Option String))) : Option (List Ident) → Option (List (Option String))
  | none => names
  | some _ => none

/-- What is left of the source once the names are taken out, and the names in the end
(_createHelpers.py:1580-1594). -/
def rawParts (C : CellOps V) (pn fn : NamesArg) (rows : List (List V)) :
    Res (List (List V) × Option (List (Option String)) × Option (List (Option String))) := do
  let d := autoDetect C pn fn rows
  if rows.isEmpty && (d.1 || d.2) then .error .IndexError
  else
    let p ← takePointNames C d.1 d.2 rows
    let f := takeFeatureNames C d.2 p.2
    return (replaceMissing C f.2, chosenNames pn p.1, chosenNames fn f.1)

/-- The length check and the object with all of the data (_createHelpers.py:1595-1627). -/
def madeFrom (C : CellOps V) (rows : List (List V)) (pn fn usePn useFn : Option (List (Option String))) :
    Res (Obj V) :=
  if sameLengths rows then convertShaped C rows (pn.getD []).length (fn.getD []).length usePn useFn
  else .error .InvalidArgumentValue

/-- `initDataObject` after the swap of the names for `rowsArePoints=False` and before the transposition
(_createHelpers.py:1465-1470, 1580-1703); `ptsEx`, `ftsEx` are `ptsExtracted`, `ftsExtracted`. -/
def keptData (C : CellOps V) (pn fn : NamesArg) (ptsEx ftsEx : Bool) (keepP keepF : Option (List Ident))
    (rows : List (List V)) : Res (Obj V) := do
  checkKeep keepP
  checkKeep keepF
  let parts ← rawParts C pn fn rows
  let o ← madeFrom C parts.1 parts.2.1 parts.2.2 (namesNow parts.2.1 keepP) (namesNow parts.2.2 keepF)
  let o1 ← o.keepAxis .point ptsEx parts.2.1 keepP
  o1.keepAxis .feature ftsEx parts.2.2 keepF

/-- `nimble.data(rows, pointNames, featureNames, keepPoints=…, keepFeatures=…, rowsArePoints=…)`
(create.py:256-273, _createHelpers.py:1448-1726).  The names are swapped for `rowsArePoints=False` (1556-1557), the
keep lists and `ptsExtracted`, `ftsExtracted` (1482-1483) are not. -/
def nimbleDataKeep (C : CellOps V) (pn fn : NamesArg) (keepP keepF : Option (List Ident)) (rowsArePoints : Bool)
    (rows : List (List V)) : Res (Obj V) :=
  if rowsArePoints then keptData C pn fn (pn == .yes) (fn == .yes) keepP keepF rows
  else do
    let o ← keptData C fn pn (pn == .yes) (fn == .yes) keepP keepF rows
    o.transpose

end Nimble
