import Verif.Model.Create

/-!
# `nimble.data` from dictionaries, a list of elements, and lists of nimble vectors

`initDataObject` (_createHelpers.py:1448-1726) with `returnType='List'`, `rowsArePoints=True` and nothing to keep or
convert, for the sources that `Model/Create.lean` leaves out: a dictionary of elements, of lists or of dictionaries,
a list of dictionaries, a list of elements, and a list of nimble objects that are vectors.  Keys are strings; names
given as dictionaries are not modelled.
-/

namespace Nimble
variable {V : Type}

/-- `sorted(names)` does not fail: strings only, or nothing to compare (_createHelpers.py:652). -/
def sortable (l : List (Option String)) : Bool := l.all Option.isSome || decide (l.length ≤ 1)

/-- `[data[foundNames.index(f)] for f in names]` (_createHelpers.py:658-662). -/
def reordered {A : Type} (found : List String) (names : List (Option String)) (data : List A) : List A :=
  names.filterMap (fun n => n.bind (fun s => data[found.idxOf s]?))

/-- The branch of `_dictNames` for a list of names (_createHelpers.py:648-662).  Two lists of strings sort to the
same list when one is a permutation of the other. -/
def dictNamesGiven {A : Type} (l : List (Option String)) (found : List String) (data : List A) :
    Res (Option (List (Option String)) × List A) :=
  if l = found.map some then .ok (some l, data)
  else if sortable l = false then .error .TypeError
  else if l.Perm (found.map some) then .ok (some l, reordered found l data)
  else .error .InvalidArgumentValue

/-- `_dictNames` (_createHelpers.py:643-670). -/
def dictNamesS {A : Type} (arg : NamesArg) (found : List String) (data : List A) :
    Res (Option (List (Option String)) × List A) :=
  match arg with
  | .given l => dictNamesGiven l found data
  | .no => .ok (none, data)
  | .auto => .ok (some (found.map some), data)
  | .yes => .ok (some (found.map some), data)

/-- The names found so far as the argument of the second `extractNames` (_createHelpers.py:526). -/
def asArg : Option (List (Option String)) → NamesArg
  | none => .no
  | some l => .given l

/-- `row[name]`. -/
def lookup (d : PyDict String V) : Option String → Res V
  | none => .error .KeyError
  | some s => match PyDict.get? d s with
    | some v => .ok v
    | none => .error .KeyError

/-- `row.keys() == keys`: equal as sets. -/
def sameKeySet (d e : PyDict String V) : Bool :=
  (PyDict.keys d).all (fun k => decide (k ∈ PyDict.keys e)) && (PyDict.keys e).all (fun k => decide (k ∈ PyDict.keys d))

/-- One round of the loop over the other dictionaries (_createHelpers.py:559-565). -/
def dictRow (first : PyDict String V) (order : List (Option String)) (d : PyDict String V) : Res (List V) :=
  if sameKeySet d first then mapRes (lookup d) order else .error .InvalidArgumentValue

/-- `featureNames` for a first dictionary without keys (_createHelpers.py:547-552). -/
def emptyDictArg (keys : List String) (fn : NamesArg) : Res NamesArg :=
  if keys = [] then
    if fn = .yes then .error .InvalidArgumentValue
    else if fn = .auto then .ok .no
    else .ok fn
  else .ok fn

/-- `pointNames` without extraction: a list, or none (_createHelpers.py:569-570). -/
def plainNames : NamesArg → Option (List (Option String))
  | .given l => some l
  | _ => none

/-- `nimble.data` of a list of dictionaries (`_extractNamesFromListOfDict`, _createHelpers.py:538-574, then
1592-1627). -/
def dataFromDicts (C : CellOps V) (pn fn : NamesArg) (first : PyDict String V) (rest : List (PyDict String V)) :
    Res (Obj V) :=
  if pn = .yes then .error .InvalidArgumentValue
  else do
    let fn' ← emptyDictArg (PyDict.keys first) fn
    let n ← dictNamesS fn' (PyDict.keys first) (PyDict.values first)
    let rows ← mapRes (dictRow first (n.1.getD ((PyDict.keys first).map some))) rest
    finishData C (replaceMissing C (n.2 :: rows)) (plainNames pn) n.1

/-- `nimble.data({})` (_createHelpers.py:528-536). -/
def dataFromNothing (C : CellOps V) (pn : NamesArg) : Res (Obj V) :=
  if pn = .yes then .error .InvalidArgumentValue else finishData C [] none none

/-- `nimble.data` of a dictionary of elements (_createHelpers.py:499-514): `featureNames` is set to `None`. -/
def dataFromDictOfElements (C : CellOps V) (pn _fn : NamesArg) (d : PyDict String V) : Res (Obj V) :=
  if d.isEmpty then dataFromNothing C pn
  else do
    let n ← dictNamesS pn (PyDict.keys d) (PyDict.values d)
    finishData C (replaceMissing C (n.2.map (fun v => [v]))) n.1 none

/-- `nimble.data` of a dictionary of lists (_createHelpers.py:499-526): the lists go through the name extraction for
a list of rows, with the keys (or the given order of them) as point names. -/
def dataFromDictOfRows (C : CellOps V) (pn fn : NamesArg) (d : PyDict String (List V)) : Res (Obj V) :=
  if d.isEmpty then dataFromNothing C pn
  else do
    let n ← dictNamesS pn (PyDict.keys d) (PyDict.values d)
    if fn = .yes then .error .InvalidArgumentValue
    else nimbleData C (asArg n.1) fn n.2

/-- The second `extractNames` for a dictionary of dictionaries. -/
def dataFromDictList (C : CellOps V) (pn fn : NamesArg) : List (PyDict String V) → Res (Obj V)
  | [] => .error .IndexError
  | first :: rest => dataFromDicts C pn fn first rest

/-- `nimble.data` of a dictionary of dictionaries (_createHelpers.py:499-526). -/
def dataFromDictOfDicts (C : CellOps V) (pn fn : NamesArg) (d : PyDict String (PyDict String V)) : Res (Obj V) :=
  if d.isEmpty then dataFromNothing C pn
  else do
    let n ← dictNamesS pn (PyDict.keys d) (PyDict.values d)
    dataFromDictList C (asArg n.1) fn n.2

/-- `nimble.data` of a list of elements: `[source]` goes through the extraction, and its first row is taken out again
(_createHelpers.py:233-235, 278-279; list.py:82-92).  There is no second row, so nothing is detected. -/
def dataFromElements (C : CellOps V) (pn fn : NamesArg) (l : List V) : Res (Obj V) :=
  if fn = .yes then .error .IndexError
  else if pn = .yes then do
    let h ← popHead l
    finishElements C (replaceMissing C [h.2]) (some [some (C.toStr h.1)]) (plainNames fn)
  else finishElements C (replaceMissing C [l]) (plainNames pn) (plainNames fn)
where
  /-- `convertData` on the one-dimensional list and the constructor (_createHelpers.py:810-813, list.py:82-92). -/
  finishElements (C : CellOps V) (rows : List (List V)) (pn fn : Option (List (Option String))) : Res (Obj V) :=
    if rows.flatten.isEmpty then convertRows C [] pn fn else convertRows C rows pn fn

/-! ## Lists of nimble vectors -/

/-- `first.shape[1] == 1 and first.shape[0] > 1` (_createHelpers.py:578). -/
def isFeatureVector (o : Obj V) : Bool := decide (o.fts.len = 1) && decide (1 < o.pts.len)

/-- `if transpose: base = base.T` (_createHelpers.py:579-580, 591-592). -/
def turned (t : Bool) (o : Obj V) : Res (Obj V) := if t then o.transpose else .ok o

/-- `base.points.getName(0)` if names were created, else `None` (_createHelpers.py:593-598). -/
def vectorName (o : Obj V) : Res (Option String) := if o.pts.namesCreated then o.pts.getName 0 else .ok none

/-- The check of the feature names of one object: the `raise` belongs to the last branch only
(_createHelpers.py:600-611). -/
def checkVectorNames (ftNames fNames : Option (List (Option String))) : Res Unit :=
  if ftNames = fNames then .ok ()
  else if ftNames.isNone then .ok ()
  else if fNames.isNone then .ok ()
  else .error .InvalidArgumentValue

/-- `if featureNames is True and …`. -/
def checkVectorIf (check : Bool) (ftNames fNames : Option (List (Option String))) : Res Unit :=
  if check then checkVectorNames ftNames fNames else .ok ()

/-- `if pointNames is True or pointNames == 'automatic'` around `vectorName`. -/
def vectorNameIf (named : Bool) (o : Obj V) : Res (Option String) := if named then vectorName o else .ok none

/-- One round of the loop over the objects (_createHelpers.py:590-611): its name, and whether names were created. -/
def vectorRound (t named check : Bool) (ftNames : Option (List (Option String))) (o : Obj V) :
    Res (Option String × Bool) := do
  let b ← turned t o
  let n ← vectorNameIf named b
  checkVectorIf check ftNames b.fts.getNamesNoGen
  return (n, b.pts.namesCreated)

/-- The point names in the end (_createHelpers.py:613-623, 628-629). -/
def vectorPointNames (pn : NamesArg) (l : List (Option String × Bool)) : Res (Option (List (Option String))) :=
  match pn with
  | .given g => .ok (some g)
  | .no => .ok none
  | .yes => if l.all (fun p => !p.2) then .error .InvalidArgumentValue else .ok (some (l.map Prod.fst))
  | .auto => .ok (if l.all (fun p => !p.2) then none else some (l.map Prod.fst))

/-- The feature names in the end (_createHelpers.py:585-586, 625-626, 630-631). -/
def vectorFeatureNames (fn : NamesArg) (ftNames : Option (List (Option String))) : Option (List (Option String)) :=
  match fn with
  | .given g => some g
  | .no => none
  | .yes => ftNames
  | .auto => ftNames

/-- Is `featureNames` `True` after 585-586? -/
def wantsNames (fn : NamesArg) (ftNames : Option (List (Option String))) : Bool :=
  fn == .yes || (fn == .auto && ftNames.isSome)

/-- `nimble.data` of a list of nimble vectors (`_extractNamesFromListOfBase`, _createHelpers.py:576-633, then
1592-1627): each object is iterated element by element (base.py:453-455; 819-823). -/
def dataFromVectors (C : CellOps V) (pn fn : NamesArg) (first : Obj V) (rest : List (Obj V)) : Res (Obj V) := do
  let f ← turned (isFeatureVector first) first
  if fn = .yes ∧ f.fts.getNamesNoGen = none then .error .InvalidArgumentValue
  else
    let l ← mapRes (vectorRound (isFeatureVector first) (pn == .yes || pn == .auto)
      (wantsNames fn f.fts.getNamesNoGen) f.fts.getNamesNoGen) (first :: rest)
    let p ← vectorPointNames pn l
    finishData C (replaceMissing C ((first :: rest).map (fun o => o.data.flatten))) p
      (vectorFeatureNames fn f.fts.getNamesNoGen)

end Nimble
