import Verif.Py

/-!
# Saving to and loading from csv files

Text is a list of characters.  The writer is `save` of a List object (base.py:1850-1924,
list.py:202-224); the reader is `_loadcsvUsingPython` (_createHelpers.py:2799-3105) with the csv module
of Python (dialect `excel`), for `keepPoints = keepFeatures = 'all'`, `ignoreNonNumericalFeatures=False`
and the separator `,` (its detection by `csv.Sniffer` is not modelled).  Names given as a dictionary,
the decoding of bytes and what `initDataObject` does with the result (missing values) are not modelled.
-/

namespace Nimble.Csv

abbrev Str := List Char

/-! ### Writer -/

/-- The quotes are doubled (_dataHelpers.py:774-775). -/
def doubleQuotes : Str → Str
  | [] => []
  | c :: r => if c = '"' then '"' :: '"' :: doubleQuotes r else c :: doubleQuotes r

/-- `csvCommaFormat` (_dataHelpers.py:769-777) of a string. -/
def csvCommaFormat (s : Str) : Str :=
  if ',' ∈ s then '"' :: (doubleQuotes s ++ ['"']) else s

/-- `','.join`. -/
def joinComma : List Str → Str
  | [] => []
  | [a] => a
  | a :: b :: l => a ++ ',' :: joinComma (b :: l)

/-- One line of the file. -/
def csvLine (cells : List Str) : Str := joinComma (cells.map csvCommaFormat) ++ ['\n']

/-- Names are written if there is at least one (base.py:1881-1899). -/
def namesSeen (includeNames : Bool) (names : Option (List (Option Str))) : Bool :=
  includeNames && (names.getD []).any Option.isSome

/-- A name which is `None` cannot be written (base.py:1920, list.py:216): `TypeError`. -/
def nameTexts : List (Option Str) → Res (List Str)
  | [] => .ok []
  | none :: _ => .error .TypeError
  | some s :: l => do
    let r ← nameTexts l
    return s :: r

/-- `_writeFeatureNamesToCSV` (base.py:1916-1922). -/
def headerLine (withPoints : Bool) (fnames : List (Option Str)) : Res Str := do
  let ns ← nameTexts fnames
  let cells := ns.map csvCommaFormat
  return joinComma (if withPoints then "pointNames".toList :: cells else cells) ++ ['\n']

/-- The lines of the points with their names (list.py:212-224). -/
def namedLines : List (Option Str) → List (List Str) → Res Str
  | none :: _, _ :: _ => .error .TypeError
  | some n :: ns, r :: rs => do
    let rest ← namedLines ns rs
    return csvLine (n :: r) ++ rest
  | _, _ => .ok []

/-- The first line, if feature names are written (list.py:209-210). -/
def saveHeader (withF withP : Bool) (fnames : List (Option Str)) : Res Str :=
  if withF then headerLine withP fnames else .ok []

/-- The lines of the points (list.py:212-224). -/
def saveBody (withP : Bool) (pnames : List (Option Str)) (rows : List (List Str)) : Res Str :=
  if withP then namedLines pnames rows else .ok (rows.flatMap csvLine)

/-- `save(outPath, fileFormat='csv', includeNames)` (base.py:1850-1910, list.py:202-224): the text
written.  `rows` are the texts `str(value)` of the elements; a text of an element which is not a string
contains no comma. -/
def saveCsv (includeNames : Bool) (pnames fnames : Option (List (Option Str))) (rows : List (List Str)) :
    Res Str :=
  if rows = [] ∨ rows.head? = some [] then .error .ImproperObjectAction
  else do
    let withP := namesSeen includeNames pnames
    let header ← saveHeader (namesSeen includeNames fnames) withP (fnames.getD [])
    let body ← saveBody withP (pnames.getD []) rows
    return header ++ body

/-! ### Lines -/

/-- `StringIO(text, newline=None)` (_createHelpers.py:2248): every line break becomes `\n`.  `cr`: the
last character was `\r`. -/
def universal : Bool → Str → Str
  | _, [] => []
  | cr, c :: r =>
    if c = '\r' then '\n' :: universal true r
    else if c = '\n' then (if cr then universal false r else '\n' :: universal false r)
    else c :: universal false r

/-- A character in front of the first line. -/
def consLine (c : Char) : List Str → List Str
  | [] => [[c]]
  | l :: ls => (c :: l) :: ls

/-- Iterating over the file: lines with their line break. -/
def splitLines : Str → List Str
  | [] => []
  | c :: r => if c = '\n' then ['\n'] :: splitLines r else consLine c (splitLines r)

/-- A comment or an empty line (_createHelpers.py:2500). -/
def skipped : Str → Bool
  | [] => false
  | c :: _ => c = '#' || c = '\n'

/-- `_advancePastComments` (_createHelpers.py:2486-2506). -/
def advancePastComments : List Str → Res (List Str)
  | [] => .error .FileFormatException
  | l :: ls => if skipped l then advancePastComments ls else .ok (l :: ls)

/-- `filter(lambda row: row[0] != '\n', ioStream)` (_createHelpers.py:2862). -/
def dropBlank (ls : List Str) : List Str := ls.filter (fun l => l.head? ≠ some '\n')

/-! ### `csv.reader`, dialect `excel` (CPython, Modules/_csv.c) -/

inductive RState where
  | startRecord | startField | inField | inQuoted | quoteInQuoted | eatCrnl
  deriving DecidableEq

structure Reader where
  state : RState
  field : Str
  fields : List Str
  deriving DecidableEq

def Reader.init : Reader := ⟨.startRecord, [], []⟩

/-- `parse_save_field`. -/
def Reader.save (r : Reader) (s : RState) : Reader := ⟨s, [], r.fields ++ [r.field]⟩

/-- `parse_add_char`. -/
def Reader.add (r : Reader) (c : Char) (s : RState) : Reader := ⟨s, r.field ++ [c], r.fields⟩

def Reader.goto (r : Reader) (s : RState) : Reader := ⟨s, r.field, r.fields⟩

/-- The state `START_FIELD`. -/
def Reader.startFieldChar (r : Reader) (c : Char) : Reader :=
  if c = '\n' ∨ c = '\r' then r.save .eatCrnl
  else if c = '"' then r.goto .inQuoted
  else if c = ',' then r.save .startField
  else r.add c .inField

/-- `parse_process_char`.  In `EAT_CRNL` only the end of the line can follow, as lines contain no other
line break. -/
def Reader.char (r : Reader) (c : Char) : Reader :=
  match r.state with
  | .startRecord => if c = '\n' ∨ c = '\r' then r.goto .eatCrnl else r.startFieldChar c
  | .startField => r.startFieldChar c
  | .inField =>
    if c = '\n' ∨ c = '\r' then r.save .eatCrnl
    else if c = ',' then r.save .startField
    else r.add c .inField
  | .inQuoted => if c = '"' then r.goto .quoteInQuoted else r.add c .inQuoted
  | .quoteInQuoted =>
    if c = '"' then r.add c .inQuoted
    else if c = ',' then r.save .startField
    else if c = '\n' ∨ c = '\r' then r.save .eatCrnl
    else r.add c .inField
  | .eatCrnl => r

/-- `parse_process_char` at the end of the line. -/
def Reader.eol (r : Reader) : Reader :=
  match r.state with
  | .startRecord => r
  | .startField | .inField | .quoteInQuoted => r.save .startRecord
  | .inQuoted => r
  | .eatCrnl => r.goto .startRecord

/-- `Reader_iternext` until the lines are used up: the records. -/
def readRows : List Str → Reader → List (List Str)
  | [], r =>
    if r.field ≠ [] ∨ r.state = .inQuoted then [r.fields ++ [r.field]] else []
  | l :: ls, r =>
    let r' := (l.foldl Reader.char r).eol
    if r'.state = .startRecord then r'.fields :: readRows ls Reader.init else readRows ls r'

/-! ### Values -/

/-- A loaded value; `missing` is `None` for a text to be looked at, nan for a converted one. -/
inductive Cell (F : Type) where
  | missing
  | bool (b : Bool)
  | int (n : Int)
  | float (f : F)
  | str (s : Str)
  deriving DecidableEq

/-- `int(text)` and `float(text)`, `none` for a `ValueError`. -/
structure NumParse (F : Type) where
  asInt : Str → Option Int
  asFloat : Str → Option F

variable {F : Type}

/-- `str(n)`. -/
def intText (n : Int) : Str :=
  if n < 0 then '-' :: Nat.toDigits 10 n.natAbs else Nat.toDigits 10 n.natAbs

/-- `str(value)` (list.py:222), with the text `showFloat` of a float (also of nan). -/
def cellText (showFloat : F → Str) : Cell F → Str
  | .missing => "None".toList
  | .bool b => if b then "True".toList else "False".toList
  | .int n => intText n
  | .float f => showFloat f
  | .str s => s

/-- `_intFloatOrString` (_createHelpers.py:2350-2364). -/
def intFloatOrString (P : NumParse F) (s : Str) : Cell F :=
  if s = [] then .missing
  else match P.asInt s with
    | some n => .int n
    | none => match P.asFloat s with
      | some f => .float f
      | none => .str s

/-- `_intFloatBoolOrString` (_createHelpers.py:2366-2375). -/
def intFloatBoolOrString (P : NumParse F) (s : Str) : Cell F :=
  match intFloatOrString P s with
  | .str t => if t = "True".toList then .bool true else if t = "False".toList then .bool false else .str t
  | c => c

/-- The type of a value; `none` for `None`. -/
inductive CType where
  | bool | int | float | str
  deriving DecidableEq, Repr

def Cell.type : Cell F → Option CType
  | .missing => none
  | .bool _ => some .bool
  | .int _ => some .int
  | .float _ => some .float
  | .str _ => some .str

/-- `typeHierarchy` (_createHelpers.py:2377). -/
def CType.rank : CType → Nat
  | .bool => 0 | .int => 1 | .float => 2 | .str => 3

/-- What is known of one column: to be converted (`convertCols`), not numeric (`nonNumericFeatures`),
or not numeric and empty so far (`allEmptyFeatures`). -/
inductive Col where
  | conv (t : CType)
  | text
  | empty
  deriving DecidableEq, Repr

/-- The first row (_createHelpers.py:2993-3001). -/
def Col.first (P : NumParse F) (v : Str) : Col :=
  match (intFloatBoolOrString P v).type with
  | none => .empty
  | some .str => .text
  | some t => .conv t

/-- A converted column meets a value of type `t` (_createHelpers.py:2396-2405). -/
def Col.meet (cur : CType) (t : Option CType) : Col :=
  match t with
  | none => .conv cur
  | some t =>
    if t = cur then .conv cur
    else if t.rank > cur.rank then (if cur = .bool ∨ t = .str then .text else .conv t)
    else if t = .bool then .text
    else .conv cur

/-- `_csvColTypeTracking` for one column (_createHelpers.py:2379-2419). -/
def Col.next (P : NumParse F) (c : Col) (v : Str) : Col :=
  match c with
  | .conv cur => Col.meet cur (intFloatBoolOrString P v).type
  | .text => .text
  | .empty => if v ≠ [] then .text else .empty

/-- All columns; values without a column are not looked at. -/
def nextCols (P : NumParse F) : List Col → List Str → List Col
  | c :: cs, v :: vs => c.next P v :: nextCols P cs vs
  | cs, _ => cs

/-- After the last row (_createHelpers.py:3023-3026). -/
def Col.final (emptyIsMissing : Bool) : Col → Col
  | .empty => if emptyIsMissing then .conv .float else .text
  | c => c

/-- `int(text)` / `float(text)` (`ValueError`). -/
def orValueError {A : Type} : Option A → Res A
  | some a => .ok a
  | none => .error .ValueError

/-- `_colTypeConversion` of one value (_createHelpers.py:2421-2434); `str` does not occur. -/
def convertCell (P : NumParse F) : Col → Str → Res (Cell F)
  | .conv t, v =>
    if v = [] then .ok .missing
    else match t with
      | .bool => .ok (.bool (decide (v ≠ "False".toList)))
      | .int => do
        let n ← orValueError (P.asInt v)
        return .int n
      | .float => do
        let f ← orValueError (P.asFloat v)
        return .float f
      | .str => .ok (.str v)
  | _, v => .ok (.str v)

/-- One row; values without a column stay text. -/
def convertRow (P : NumParse F) : List Col → List Str → Res (List (Cell F))
  | c :: cs, v :: vs => do
    let x ← convertCell P c v
    let r ← convertRow P cs vs
    return x :: r
  | [], v :: vs => do
    let r ← convertRow P [] vs
    return .str v :: r
  | _, [] => .ok []

def convertRows (P : NumParse F) (cols : List Col) : List (List Str) → Res (List (List (Cell F)))
  | [] => .ok []
  | r :: rs => do
    let x ← convertRow P cols r
    let y ← convertRows P cols rs
    return x :: y

/-! ### Names -/

/-- `pointNames` / `featureNames`: `'automatic'`, `True`, `False`, or a list. -/
inductive NArg where
  | auto
  | yes
  | no
  | given (l : List (Option Str))
  deriving DecidableEq

def Cell.isStr : Cell F → Bool
  | .str _ => true
  | _ => false

/-- `isNum` of a value which is not a bool. -/
def Cell.isNum : Cell F → Bool
  | .int _ => true
  | .float _ => true
  | _ => false

def Cell.text : Cell F → Str
  | .str s => s
  | _ => []

/-- `firstValues[0] == 'pointNames'`. -/
def saysPointNames : List (Cell F) → Bool
  | .str s :: _ => s = "pointNames".toList
  | _ => false

/-- `allText and anyNum` (_createHelpers.py:190-200); the duplicates are looked for among texts only. -/
def looksLikeHeader (p : NArg) (first second : List (Cell F)) : Bool :=
  if (p = .yes ∨ p = .auto) ∧ saysPointNames first then
    first.tail.all Cell.isStr && decide (first.tail.map Cell.text).Nodup && second.tail.any Cell.isNum
  else
    first.all Cell.isStr && decide (first.tail.map Cell.text).Nodup && second.any Cell.isNum

/-- `isinstance(names, bool) and names` (_createHelpers.py:178-179). -/
def NArg.fail (a : NArg) : NArg := if a = .yes then .yes else .no

/-- `autoDetectNamesFromRaw` (_createHelpers.py:173-215) for two rows (`[]`: no row). -/
def autoDetect (p f : NArg) (first second : List (Cell F)) : NArg × NArg :=
  if first = [] ∨ second = [] ∨ f = .no then (p.fail, f.fail)
  else
    let f1 := if f = .auto then (if looksLikeHeader p first second then .yes else .no) else f
    let p1 := if p = .auto then (if f1 = .yes ∧ saysPointNames first then .yes else .no) else p
    (p1, f1)

/-- The values of the first two rows which count (_createHelpers.py:2456-2467), and whether the first
value of the first row only is empty. -/
def dataRows (P : NumParse F) : Bool → List Str → List Str → List (Cell F) × List (Cell F) × Bool
  | isFirst, a :: as, b :: bs =>
    let x := intFloatOrString P a
    let y := intFloatOrString P b
    let r := dataRows P false as bs
    if x.type.isSome ∨ y.type = none then (x :: r.1, y :: r.2.1, r.2.2)
    else (r.1, r.2.1, isFirst || r.2.2)
  | _, _, _ => ([], [], false)

/-- `_checkCSVForNames` (_createHelpers.py:2437-2483) with the records of the file. -/
def checkNames (P : NumParse F) (p f : NArg) (records : List (List Str)) : NArg × NArg × Bool :=
  match records.filter (· ≠ []) with
  | first :: second :: _ =>
    let d := dataRows P true first second
    let n := autoDetect p f d.1 d.2.1
    -- `possiblePtNames and featureNames`: featureNames is True or a list which is not empty
    (n.1, n.2, d.2.2 && decide (n.2 ≠ .no ∧ n.2 ≠ .given []))
  | _ =>
    let n := autoDetect p f ([] : List (Cell F)) []
    (n.1, n.2, false)

/-! ### The loop over the rows -/

/-- The variables of the loop (_createHelpers.py:2912-3020). -/
structure Loop where
  /-- `pointNames` -/
  p : NArg
  track : Bool
  possible : List Str
  /-- `retFNames`; `none` for `False` -/
  fnames : Option (List (Option Str))
  firstLen : Option Nat
  extracted : List Str
  data : List (List Str)
  cols : Option (List Col)

/-- Is the first value of each row a name? -/
def Loop.named (s : Loop) : Bool := s.p = .yes || s.track

/-- The names taken so far are values after all (_createHelpers.py:2935-2945). -/
def Loop.giveBack (s : Loop) : Loop :=
  { s with
    data := List.zipWith (fun n r => n :: r) s.extracted s.data ++ s.data.drop s.extracted.length
    fnames := s.fnames.map (none :: ·)
    firstLen := s.firstLen.map (· + 1)
    track := false
    p := .no }

/-- The name of the point, the values, and the variables afterwards (_createHelpers.py:2925-2947). -/
def Loop.takeName (s : Loop) (row : List Str) : Loop × Str × List Str :=
  if s.named then
    let name := row.headD []
    let vals := row.tail
    if s.track then
      if name ∈ s.possible then (s.giveBack, name, name :: vals)
      else ({ s with possible := name :: s.possible }, name, vals)
    else (s, name, vals)
  else (s, [], row)

/-- The type tracking of the columns (_createHelpers.py:2993-3004). -/
def trackCols (P : NumParse F) : Option (List Col) → List Str → List Col
  | none, vals => vals.map (Col.first P)
  | some cs, vals => nextCols P cs vals

/-- One row is kept (_createHelpers.py:2925-3020). -/
def Loop.keep (P : NumParse F) (s : Loop) (row : List Str) : Res Loop :=
  let t := s.takeName row
  if t.1.firstLen.isSome ∧ t.1.firstLen ≠ some t.2.2.length then .error .FileFormatException
  else .ok
    { t.1 with
      firstLen := some t.2.2.length
      cols := some (trackCols P t.1.cols t.2.2)
      data := t.1.data ++ [t.2.2]
      extracted := if t.1.named then t.1.extracted ++ [t.2.1] else t.1.extracted }

/-- A list of more than three (the length of `'all'`) names is too short: `IndexError`
(_createHelpers.py:2928-2929). -/
def Loop.outOfNames (s : Loop) (i : Nat) : Bool :=
  match s.p with
  | .given l => !s.track && decide (3 < l.length ∧ l.length ≤ i)
  | _ => false

/-- One row (_createHelpers.py:2924-3020). -/
def Loop.row (P : NumParse F) (s : Loop) (i : Nat) (row : List Str) : Res Loop :=
  if s.outOfNames i then .error .IndexError else s.keep P row

def Loop.rows (P : NumParse F) : Loop → Nat → List (List Str) → Res Loop
  | s, _, [] => .ok s
  | s, i, r :: rs => do
    let s1 ← s.row P i r
    Loop.rows P s1 (i + 1) rs

/-- The last feature is removed: all its values are empty and it has no name
(_createHelpers.py:3043-3056). -/
def lastRemovable (emptyIsMissing : Bool) (f : NArg) (fnames : Option (List (Option Str))) (len : Nat)
    (cols : List Col) : Bool :=
  emptyIsMissing && decide (0 < len ∧ cols[len - 1]? = some .empty) &&
    ((fnames.getD []).isEmpty || decide ((fnames.getD []).length = len - 1) ||
      (f = .yes && (fnames.getD []).getLast? = some none))

/-- The loaded data, point names and feature names. -/
structure Loaded (F : Type) where
  data : List (List (Cell F))
  pnames : Option (List (Option Str))
  fnames : Option (List (Option Str))
  deriving DecidableEq

/-- The point names in the end (_createHelpers.py:3091-3103); `for ptID in 'all'` gives the names
`'a'`, `'l'`, `'l'`. -/
def finalPointNames (p : NArg) (extracted : List Str) (n : Nat) : Option (List (Option Str)) :=
  match p with
  | .yes => some (extracted.map some)
  | .given l =>
    if l = [] then none
    else if n = l.length then some l else some [some ['a'], some ['l'], some ['l']]
  | _ => none

/-- What comes after the loop (_createHelpers.py:3023-3105). -/
def Loop.finish (P : NumParse F) (emptyIsMissing : Bool) (f : NArg) (s : Loop) : Res (Loaded F) := do
  let cols := s.cols.getD []
  let len := s.firstLen.getD 0
  -- `pointNames = trackPoints`, which is `featureNames`
  let p := if s.track then f else s.p
  if lastRemovable emptyIsMissing f s.fnames len cols then
    let data ← convertRows P ((cols.map (Col.final emptyIsMissing)).take (len - 1)) (s.data.map List.dropLast)
    return ⟨data, finalPointNames p s.extracted s.data.length,
      if f = .yes then s.fnames.map List.dropLast else s.fnames⟩
  else
    let data ← convertRows P (cols.map (Col.final emptyIsMissing)) s.data
    return ⟨data, finalPointNames p s.extracted s.data.length, s.fnames⟩

/-- A name of the header (_createHelpers.py:2868). -/
def headerName (v : Str) : Option Str := if v = [] then none else some v

/-- Before the loop (_createHelpers.py:2866-2876): the variables and the rows left. -/
def startLoop (p f : NArg) (track : Bool) (records : List (List Str)) : Res (Loop × List (List Str)) :=
  match f with
  | .yes =>
    match records with
    | [] => .error .StopIteration
    | h :: rest =>
      let hdr := h.map headerName
      let names := if p = .yes ∨ track then hdr.tail else hdr
      .ok (⟨p, track, [], some names, some names.length, [], [], none⟩, rest)
  | .given l => .ok (⟨p, track, [], some l, none, [], [], none⟩, records)
  | _ => .ok (⟨p, track, [], none, none, [], [], none⟩, records)

/-- `_loadcsvUsingPython` (_createHelpers.py:2799-3105). -/
def loadCsv (P : NumParse F) (p f : NArg) (emptyIsMissing : Bool) (text : Str) : Res (Loaded F) := do
  let lines ← advancePastComments (splitLines (universal false text))
  let n := checkNames P p f (readRows lines Reader.init)
  let start ← startLoop n.1 n.2.1 n.2.2 (readRows (dropBlank lines) Reader.init)
  let s ← Loop.rows P start.1 0 start.2
  s.finish P emptyIsMissing n.2.1

end Nimble.Csv
