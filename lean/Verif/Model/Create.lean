import Verif.Model.Obj

/-!
# `nimble.data` from a list of rows, and mapReduce

`nimble.data` (create.py:38-289) for a Python list of rows (lists) of allowed elements and
`returnType='List'`, with its name detection.  Not modelled: other sources (files, numpy, pandas,
scipy, dictionaries, one-dimensional lists, more than two dimensions), `keepPoints`,
`keepFeatures`, `convertToType`, `rowsArePoints=False`, names given as dictionaries.
-/

namespace Nimble

/-- What `nimble.data` looks at in an element. -/
structure CellOps (V : Type) where
  /-- `isinstance(x, str)`, and the string. -/
  asStr : V → Option String
  /-- `isNum` (_createHelpers.py:163-170). -/
  isNum : V → Bool
  /-- `str(x)`. -/
  toStr : V → String
  /-- `treatAsMissing` contains `x` or `x` is a nan (_createHelpers.py:979-999). -/
  missing : V → Bool
  /-- `replaceMissingWith`. -/
  nan : V
  /-- whatever `np.empty` finds in memory (_createHelpers.py:813, 817) -/
  junk : V

/-- The `pointNames`/`featureNames` argument: `'automatic'`, `True`, `False`/`None`, a list. -/
inductive NamesArg where
  | auto
  | yes
  | no
  | given (l : List (Option String))
  deriving DecidableEq

variable {V : Type}

/-- `isinstance(x, str)` for every element (_createHelpers.py:192-193, 197-198). -/
def allText (C : CellOps V) (l : List V) : Bool := l.all (fun v => (C.asStr v).isSome)

/-- `noDuplicates` (_createHelpers.py:187-188), used on strings only. -/
def noDup (C : CellOps V) (l : List V) : Bool := decide (l.map C.asStr).Nodup

/-- `firstValues[0] == 'pointNames'`. -/
def saysPointNames (C : CellOps V) (row : List V) : Bool :=
  decide ((row.head?.bind C.asStr) = some "pointNames")

/-- The rows look like a header above data (_createHelpers.py:190-200). -/
def looksLikeHeader (C : CellOps V) (pn : NamesArg) (first second : List V) : Bool :=
  if (pn == .yes || pn == .auto) && saysPointNames C first then
    allText C first.tail && noDup C first.tail && second.tail.any C.isNum
  else allText C first && noDup C first.tail && second.any C.isNum

/-- `autoDetectNamesFromRaw` (_createHelpers.py:173-215): are point names / feature names to be
taken out of the data?  `rows` are the raw rows; only the first two matter.  A given list or
`None` behaves like `False` here. -/
def autoDetect (C : CellOps V) (pn fn : NamesArg) (rows : List (List V)) : Bool × Bool :=
  let fail := (pn == .yes, fn == .yes)
  match rows with
  | (f :: fs) :: (s :: ss) :: _ =>
    if fn == .no then fail
    else
      let fnYes := fn == .yes || (fn == .auto && looksLikeHeader C pn (f :: fs) (s :: ss))
      (pn == .yes || (pn == .auto && fnYes && saysPointNames C (f :: fs)), fnYes)
  | _ => fail

/-- `ft.pop(0)` for one row (_createHelpers.py:260). -/
def popHead : List V → Res (V × List V)
  | [] => .error .IndexError
  | v :: r => .ok (v, r)

/-- The loop taking the first element out of every row (_createHelpers.py:257-265). -/
def popColumn : List (List V) → Res (List V × List (List V))
  | [] => .ok ([], [])
  | r :: rs => do
    let h ← popHead r
    let t ← popColumn rs
    return (h.1 :: t.1, h.2 :: t.2)

/-- Point names taken out of the first column (_createHelpers.py:253-266). -/
def takePointNames (C : CellOps V) (pn fn : Bool) (rows : List (List V)) :
    Res (Option (List (Option String)) × List (List V)) :=
  if pn then do
    let t ← popColumn rows
    let vs := if fn then t.1.drop 1 else t.1
    return (some (vs.map (fun v => some (C.toStr v))), t.2)
  else return (none, rows)

/-- Feature names taken out of the first row (_createHelpers.py:268-276). -/
def takeFeatureNames (C : CellOps V) (fn : Bool) (rows : List (List V)) :
    Option (List (Option String)) × List (List V) :=
  if fn then (some ((rows.headD []).map (fun v => some (C.toStr v))), rows.tail)
  else (none, rows)

/-- The names in the end (_createHelpers.py:744-778). -/
def chosenNames (arg : NamesArg) (extracted : Option (List (Option String))) :
    Option (List (Option String)) :=
  match arg with
  | .no => none
  | .yes => extracted
  | .auto => extracted
  | .given l => some l

/-- `_replaceMissingData` (_createHelpers.py:974-1046). -/
def replaceMissing (C : CellOps V) (rows : List (List V)) : List (List V) :=
  rows.map (fun r => r.map (fun v => if C.missing v then C.nan else v))

/-- `all rows have the length of the first` (`analyzeValues`, _createHelpers.py:1404-1415). -/
def sameLengths (rows : List (List V)) : Bool :=
  rows.all (fun r => r.length == (rows.headD []).length)

/-- `np.empty([p, f])`. -/
def emptyRows (C : CellOps V) (p f : Nat) : List (List V) :=
  List.replicate p (List.replicate f C.junk)

/-- `convertData` for `List` followed by the constructor (_createHelpers.py:783-828,
list.py:66-131). -/
def convertRows (C : CellOps V) (rows : List (List V)) (pn fn : Option (List (Option String))) :
    Res (Obj V) :=
  let lenP := (pn.getD []).length
  let lenF := (fn.getD []).length
  match rows with
  | [] => Obj.make (emptyRows C lenP lenF) lenP lenF pn fn
  | [] :: rest => Obj.make (emptyRows C (rest.length + 1) lenF) (rest.length + 1) lenF pn fn
  | (v :: r) :: rest => Obj.make ((v :: r) :: rest) (rest.length + 1) (r.length + 1) pn fn

/-- The row length check and the conversion (_createHelpers.py:1595-1627). -/
def finishData (C : CellOps V) (rows : List (List V)) (pn fn : Option (List (Option String))) :
    Res (Obj V) :=
  if sameLengths rows then convertRows C rows pn fn else .error .InvalidArgumentValue

/-- `nimble.data(rows, pointNames, featureNames)` (create.py:256-289, `initDataObject`
_createHelpers.py:1448-1726). -/
def nimbleData (C : CellOps V) (pn fn : NamesArg) (rows : List (List V)) : Res (Obj V) := do
  let d := autoDetect C pn fn rows
  if rows.isEmpty && (d.1 || d.2) then .error .IndexError  -- 233-235, 260, 273, 279
  else
    let p ← takePointNames C d.1 d.2 rows
    let f := takeFeatureNames C d.2 p.2
    finishData C (replaceMissing C f.2) (chosenNames pn p.1) (chosenNames fn f.1)

/-! ## mapReduce -/

/-- Run a function that may raise over a list, in order. -/
def mapRes {A B : Type} (f : A → Res B) : List A → Res (List B)
  | [] => .ok []
  | a :: as => do
    let b ← f a
    let bs ← mapRes f as
    return b :: bs

/-- `if k not in mapResults: mapResults[k] = []; mapResults[k].append(v)` (axis.py:733-738). -/
def addMapped {K A : Type} [DecidableEq K] (d : PyDict K (List A)) (p : K × A) :
    PyDict K (List A) :=
  let d1 := if PyDict.has d p.1 then d else PyDict.set d p.1 []
  PyDict.set d1 p.1 ((PyDict.get? d1 p.1).getD [] ++ [p.2])

/-- The reduced rows: `[redKey, redValue]`, `None` results skipped (axis.py:741-747). -/
def reducedRows (l : List (Option (V × V))) : List (List V) :=
  l.filterMap (Option.map (fun p => [p.1, p.2]))

/-- `points.mapReduce` / `features.mapReduce` (axis.py:700-754).  `mapper` and `reducer` are
arbitrary callables which may raise; keys are compared with `==` (`DecidableEq`). -/
def Obj.mapReduce {W K A : Type} [DecidableEq K] (C : CellOps V) (o : Obj W) (ax : Ax)
    (mapper : AxView W → Res (List (K × A))) (reducer : K → List A → Res (Option (V × V))) :
    Res (Obj V) := do
  if (o.axis ax.off).len = 0 then .error .ImproperObjectAction
  else if (o.axis ax).len = 0 then Obj.make [] 0 0 none none
  else
    let mapped ← mapRes mapper ((List.range (o.axis ax).len).map (o.view ax none))
    let d := mapped.foldl (fun d l => l.foldl addMapped d) []
    let red ← mapRes (fun p => reducer p.1 p.2) d
    nimbleData C .auto .auto (reducedRows red)

end Nimble
