import Verif.Model.Csv

/-!
# `keepPoints` and `keepFeatures` when loading a csv file

`_loadcsvUsingPython` (_createHelpers.py:2799-3104) with the keep lists, which are applied while the file is read.
`Model/Csv.lean` is the same function with `'all'` for both.  Not modelled: floats in a keep list,
`ignoreNonNumericalFeatures=True`.  A kept point which is never found although the number of the found ones is right
(2987, 3024) is `None` in the data; what pandas makes of it is not modelled, a `TypeError` is assumed.
-/

namespace Nimble.Csv
variable {F : Type}

/-- A member of a keep list. -/
inductive KId where
  | int (i : Int)
  | str (s : Str)
  deriving DecidableEq

/-- `_checkForDuplicates` (_createHelpers.py:2556-2566). -/
def checkDup (ids : List KId) : Res Unit := if ids.Nodup then .ok () else .error .InvalidArgumentValue

/-- `_keepIndexValuesValidation` (_createHelpers.py:2569-2592), and the indices. -/
def keepNumbers : List KId → Res (List Nat)
  | [] => .ok []
  | .str _ :: _ => .error .InvalidArgumentValue
  | .int i :: xs =>
    if i < 0 then .error .InvalidArgumentValue
    else do
      let r ← keepNumbers xs
      return i.toNat :: r

/-- `_limitToKeptFeatures` (_createHelpers.py:2620-2657); `idx` and `kept` are `keepIndices` and `keepNames`. -/
def limitToKept (names : List (Option Str)) : List Nat → List (Option Str) → List KId →
    Res (List Nat × List (Option Str))
  | idx, kept, [] => .ok (idx, kept)
  | idx, kept, .str s :: ids =>
    if some s ∈ names then
      if names.idxOf (some s) ∈ idx then .error .InvalidArgumentValue
      else limitToKept names (idx ++ [names.idxOf (some s)]) (kept ++ [some s]) ids
    else .error .InvalidArgumentValue
  | idx, kept, .int i :: ids =>
    if 0 ≤ i ∧ i < names.length then
      if names.getD i.toNat none ∈ kept then .error .InvalidArgumentValue
      else limitToKept names (idx ++ [i.toNat]) (kept ++ [names.getD i.toNat none]) ids
    else .error .InvalidArgumentValue

/-- The features to keep (`none`: all), the names and `keepFeaturesValidated` (_createHelpers.py:2884-2899); `f` is
`featureNames`, `fnames` is `retFNames`. -/
def keepFeats (f : NArg) (fnames : Option (List (Option Str))) :
    Option (List KId) → Res (Option (List Nat) × Option (List (Option Str)) × Bool)
  | none => .ok (none, fnames, true)
  | some ids => do
    checkDup ids
    if fnames.getD [] ≠ [] ∧ ((fnames.getD []).length ≠ ids.length ∨ f = .yes) then
      let r ← limitToKept (fnames.getD []) [] [] ids
      return (some r.1, some r.2, true)
    else
      let r ← keepNumbers ids
      return (some r, fnames, false)

/-- `not pointNames or (pointNames is not True and len(pointNames) == len(keepPoints))`
(_createHelpers.py:2903-2905). -/
def numbersOnly (p : NArg) (n : Nat) : Bool :=
  match p with
  | .yes => false
  | .given l => l.isEmpty || l.length == n
  | _ => true

/-- The checks of the points to keep (_createHelpers.py:2900-2906). -/
def checkPoints (p : NArg) : Option (List KId) → Res Unit
  | none => .ok ()
  | some ids => do
    checkDup ids
    if numbersOnly p ids.length then
      let _ ← keepNumbers ids
      return ()
    else return ()

/-- The variables of the loop (_createHelpers.py:2908-3011). -/
structure KLoop where
  /-- `pointNames` -/
  p : NArg
  track : Bool
  possible : List Str
  /-- `retFNames` -/
  fnames : Option (List (Option Str))
  firstLen : Option Nat
  /-- `extractedPointNames` -/
  extracted : List (Option Str)
  /-- `retData` -/
  data : List (Option (List Str))
  cols : Option (List Col)
  located : List KId
  validated : Bool

def KLoop.named (s : KLoop) : Bool := s.p = .yes || s.track

/-- The names taken so far are values after all (_createHelpers.py:2932-2941). -/
def KLoop.giveBack (s : KLoop) : Res KLoop :=
  match s.firstLen with
  | none => .error .TypeError
  | some n => .ok
    { s with
      data := List.zipWith (fun nm r => r.map (fun v => nm.getD [] :: v)) s.extracted s.data ++
        s.data.drop s.extracted.length
      fnames := s.fnames.map (none :: ·)
      firstLen := some (n + 1)
      track := false
      p := .no }

/-- The name of the `i`-th point when the names are not in the file (_createHelpers.py:2927-2930); `keepLen` is
`len(keepPoints)`. -/
def givenName (p : NArg) (keepLen i : Nat) : Res (Option Str) :=
  match p with
  | .given l =>
    if keepLen < l.length then
      match l[i]? with
      | none => .error .IndexError
      | some n => .ok n
    else .ok none
  | _ => .ok none

/-- The name of the point, its values, and the variables afterwards (_createHelpers.py:2924-2943). -/
def KLoop.takeName (keepLen : Nat) (s : KLoop) (i : Nat) (row : List Str) : Res (KLoop × Option Str × List Str) :=
  if s.named then
    if s.track then
      if row.headD [] ∈ s.possible then do
        let s1 ← s.giveBack
        return (s1, some (row.headD []), row.headD [] :: row.tail)
      else .ok ({ s with possible := row.headD [] :: s.possible }, some (row.headD []), row.tail)
    else .ok (s, some (row.headD []), row.tail)
  else do
    let n ← givenName s.p keepLen i
    return (s, n, row)

/-- `val > len(row)` for a kept feature (_createHelpers.py:2944-2951). -/
def tooLarge (keepF : Option (List Nat)) (n : Nat) : Bool := (keepF.getD []).any (fun v => decide (n < v))

/-- `ptName in keepPoints`. -/
def hasName (ids : List KId) : Option Str → Bool
  | none => false
  | some s => decide (.str s ∈ ids)

/-- `i in keepPoints`. -/
def hasIndex (ids : List KId) (i : Nat) : Bool := decide (.int (i : Int) ∈ ids)

/-- `[row[ftID] for ftID in keepFeatures]` (_createHelpers.py:2975-2978). -/
def limitRow (vals : List Str) : List Nat → Res (List Str)
  | [] => .ok []
  | j :: js =>
    match vals[j]? with
    | none => .error .IndexError
    | some v => do
      let r ← limitRow vals js
      return v :: r

/-- The values of the kept features of a row (_createHelpers.py:2974-2978). -/
def keptVals (keepF : Option (List Nat)) (vals : List Str) : Res (List Str) :=
  match keepF with
  | none => .ok vals
  | some js => limitRow vals js

/-- Where the row goes (_createHelpers.py:2994-3009). -/
def KLoop.place (s : KLoop) (keepP : Option (List KId)) (i : Nat) (name : Option Str) (vals : List Str) : KLoop :=
  match keepP with
  | none => { s with
      data := s.data ++ [some vals]
      extracted := if s.named then s.extracted ++ [name] else s.extracted }
  | some ids =>
    let locate := if hasName ids name then KId.str (name.getD []) else KId.int i
    { s with
      located := s.located ++ [locate]
      data := s.data.set (ids.idxOf locate) (some vals)
      extracted := if s.named then s.extracted.set (ids.idxOf locate) name else s.extracted }

/-- One row that is used (_createHelpers.py:2957-3009). -/
def KLoop.use (P : NumParse F) (keepP : Option (List KId)) (keepF : Option (List Nat)) (s : KLoop) (i : Nat)
    (name : Option Str) (vals : List Str) : Res KLoop :=
  if s.firstLen.isSome ∧ s.firstLen ≠ some vals.length then .error .FileFormatException
  else if s.validated = false ∧ (keepF.map List.length) = some vals.length then .error .InvalidArgumentValue
  else do
    let kept ← keptVals keepF vals
    return ({ s with
      firstLen := some vals.length
      validated := true
      cols := some (trackCols P s.cols kept) } : KLoop).place keepP i name kept

/-- `keepPoints == 'all' or i in keepPoints or ptName in keepPoints` (_createHelpers.py:2956). -/
def isUsed (keepP : Option (List KId)) (i : Nat) (name : Option Str) : Bool :=
  match keepP with
  | none => true
  | some ids => hasIndex ids i || hasName ids name

/-- An index and a name of the same point (_createHelpers.py:2953-2954). -/
def isConflict (keepP : Option (List KId)) (i : Nat) (name : Option Str) : Bool :=
  match keepP with
  | none => false
  | some ids => hasIndex ids i && hasName ids name

/-- One row (_createHelpers.py:2923-3011). -/
def KLoop.row (P : NumParse F) (keepP : Option (List KId)) (keepF : Option (List Nat)) (s : KLoop) (i : Nat)
    (row : List Str) : Res KLoop := do
  -- `len('all')` is 3
  let t ← s.takeName ((keepP.map List.length).getD 3) i row
  if t.1.validated = false ∧ tooLarge keepF t.2.2.length then .error .InvalidArgumentValue
  else if isConflict keepP i t.2.1 then .error .InvalidArgumentValue
  else if isUsed keepP i t.2.1 then t.1.use P keepP keepF i t.2.1 t.2.2
  else return t.1

def KLoop.rows (P : NumParse F) (keepP : Option (List KId)) (keepF : Option (List Nat)) :
    KLoop → Nat → List (List Str) → Res KLoop
  | s, _, [] => .ok s
  | s, i, r :: rs => do
    let s1 ← s.row P keepP keepF i r
    KLoop.rows P keepP keepF s1 (i + 1) rs

/-- `retData` when every entry is a row. -/
def allRows : List (Option (List Str)) → Res (List (List Str))
  | [] => .ok []
  | none :: _ => .error .TypeError
  | some r :: rs => do
    let t ← allRows rs
    return r :: t

/-- `pointNames[ptID]` (_createHelpers.py:3096-3100). -/
def pickNames (l : List (Option Str)) : List KId → Res (List (Option Str))
  | [] => .ok []
  | .str s :: ids => do
    let r ← pickNames l ids
    return some s :: r
  | .int i :: ids =>
    match l[i.toNat]? with
    | none => .error .IndexError
    | some n => do
      let r ← pickNames l ids
      return n :: r

/-- The point names in the end (_createHelpers.py:3089-3102); `n` is `len(retData)`. -/
def keptPointNames (p : NArg) (extracted : List (Option Str)) (n : Nat) (keepP : Option (List KId)) :
    Res (Option (List (Option Str))) :=
  match p with
  | .yes => .ok (some extracted)
  | .given l =>
    if l = [] then .ok none
    else if n = l.length then .ok (some l)
    else match keepP with
      | none => .ok (some [some ['a'], some ['l'], some ['l']])
      | some ids => (pickNames l ids).map some
  | _ => .ok none

/-- `pointNames and pointNames is not True and len(retData) == totalPoints == len(keepPoints)`
(_createHelpers.py:3019-3021). -/
def fullList (p : NArg) (keepP : Option (List KId)) (total : Nat) : Bool :=
  match p, keepP with
  | .given l, some ids => !l.isEmpty && ids.length == total
  | _, _ => false

/-- `len(keepPoints) != len(locatedPoints)` (_createHelpers.py:3024). -/
def notLocated (keepP : Option (List KId)) (located : List KId) : Bool :=
  match keepP with
  | none => false
  | some ids => ids.length != located.length

/-- What comes after the loop (_createHelpers.py:3013-3104); `total` is `totalPoints`. -/
def KLoop.finish (P : NumParse F) (emptyIsMissing : Bool) (f : NArg) (keepP : Option (List KId))
    (keepF : Option (List Nat)) (total : Nat) (s : KLoop) : Res (Loaded F) := do
  let cols := s.cols.getD []
  let len := s.firstLen.getD 0
  let p := if s.track then f else s.p
  if fullList p keepP total then .error .InvalidArgumentValue
  else if notLocated keepP s.located then .error .InvalidArgumentValue
  else
    let rows ← allRows s.data
    let pnames ← keptPointNames p s.extracted s.data.length keepP
    if keepF = none ∧ lastRemovable emptyIsMissing f s.fnames len cols then
      let data ← convertRows P ((cols.map (Col.final emptyIsMissing)).take (len - 1)) (rows.map List.dropLast)
      return ⟨data, pnames, if f = .yes then s.fnames.map List.dropLast else s.fnames⟩
    else
      let data ← convertRows P (cols.map (Col.final emptyIsMissing)) rows
      return ⟨data, pnames, s.fnames⟩

/-- `[None] * len(keepPoints)` or `[]` (_createHelpers.py:2908-2916). -/
def emptyPlaces {A : Type} : Option (List KId) → List (Option A)
  | none => []
  | some ids => List.replicate ids.length none

/-- The variables before the loop. -/
def KLoop.start (s : Loop) (keepP : Option (List KId)) (fnames : Option (List (Option Str))) (validated : Bool) :
    KLoop :=
  ⟨s.p, s.track, [], fnames, s.firstLen, emptyPlaces keepP, emptyPlaces keepP, none, [], validated⟩

/-- From the records of the file on (_createHelpers.py:2869-3104); `p`, `f`, `track` are what `_checkCSVForNames`
found. -/
def loadRecords (P : NumParse F) (p f : NArg) (track : Bool) (keepP keepF : Option (List KId)) (emptyIsMissing : Bool)
    (records : List (List Str)) : Res (Loaded F) := do
  let start ← startLoop p f track records
  let kf ← keepFeats f start.1.fnames keepF
  checkPoints start.1.p keepP
  let s ← KLoop.rows P keepP kf.1 (KLoop.start start.1 keepP kf.2.1 kf.2.2) 0 start.2
  s.finish P emptyIsMissing f keepP kf.1 start.2.length

/-- `_loadcsvUsingPython` (_createHelpers.py:2799-3104). -/
def loadCsvKeep (P : NumParse F) (p f : NArg) (keepP keepF : Option (List KId)) (emptyIsMissing : Bool) (text : Str) :
    Res (Loaded F) := do
  let lines ← advancePastComments (splitLines (universal false text))
  let n := checkNames P p f (readRows lines Reader.init)
  loadRecords P n.1 n.2.1 n.2.2 keepP keepF emptyIsMissing (readRows (dropBlank lines) Reader.init)

end Nimble.Csv
