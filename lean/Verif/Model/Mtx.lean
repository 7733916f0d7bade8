import Verif.Model.Csv

/-!
# Matrix Market files: the names and, for `List`, the values

`save(fileFormat='mtx')` (base.py:1850-1913; list.py:226-264, matrix.py:153-182, dataframe.py:177-193, sparse.py:326-352)
and `_loadmtxForAuto` (_createHelpers.py:2660-2719) with neither `pointNames=True` nor `featureNames=True`.
`scipy.io.mmwrite` writes the banner, a line `%` + `line` for each line of the comment, and the size and values (`rest`).
Text is a list of characters (in UTF-8 the bytes of the characters looked at occur in no other character); the encoding
`mmwrite` uses is not modelled.
-/

namespace Nimble.Mtx
open Csv

/-- The type of the object saved. -/
inductive Kind where
  | list | matrix | dataframe | sparse
  deriving DecidableEq

/-- Python's `split(d)`. -/
def splitOn (d : Char) : Str → List Str
  | [] => [[]]
  | c :: r => if c = d then [] :: splitOn d r else consLine c (splitOn d r)

/-- `'#' + ','.join(names)`: `writeNames` (list.py:235-243), `makeNameString` (matrix.py:159-165, sparse.py:328-334),
dataframe.py:187-190.  A name which is `None` is a `TypeError` in all of them. -/
def nameLine (withNames : Bool) (names : List (Option Str)) : Res Str :=
  if withNames then do
    let ns ← nameTexts names
    return '#' :: joinComma ns
  else .ok ['#']

/-- The comment given to `mmwrite`: matrix.py:167-177, dataframe.py:187-191, sparse.py:336-349; `p` and `f` are the lines
with the names. -/
def comment (k : Kind) (withF : Bool) (p f : Str) : Str :=
  match k with
  | .matrix => p ++ '\n' :: (if withF then f else f ++ ['\n'])
  | .dataframe => if withF then p ++ '\n' :: f else p
  | _ => p ++ '\n' :: (f ++ ['\n'])

/-- The comment lines in the file: written by `List` itself (list.py:245-252) or by `mmwrite`. -/
def commentText (k : Kind) (withF : Bool) (p f : Str) : Str :=
  match k with
  | .list => '%' :: (p ++ '\n' :: '%' :: (f ++ ['\n']))
  | _ => (splitOn '\n' (comment k withF p f)).flatMap (fun l => '%' :: (l ++ ['\n']))

/-- `save(outPath, fileFormat='mtx', includeNames)` (base.py:1850-1913): the text of the file. -/
def saveMtx (k : Kind) (banner rest : Str) (includeNames : Bool) (pnames fnames : Option (List (Option Str)))
    (rows cols : Nat) : Res Str :=
  if rows = 0 ∨ cols = 0 then .error .ImproperObjectAction
  else do
    let withF := namesSeen includeNames fnames
    let p ← nameLine (namesSeen includeNames pnames) (pnames.getD [])
    let f ← nameLine withF (fnames.getD [])
    return banner ++ '\n' :: (commentText k withF p f ++ rest)

/-! ## Loading -/

/-- ASCII white space. -/
def ws (c : Char) : Bool := c = ' ' || c = '\t' || c = '\n' || c = '\r' || c = '\x0b' || c = '\x0c'

/-- `rstrip()` of bytes. -/
def rstrip (s : Str) : Str := (s.reverse.dropWhile ws).reverse

/-- The names of a comment line (_createHelpers.py:2686-2696). -/
def namesOf (l : Str) : Option (List Str) :=
  let ns := splitOn ',' (rstrip (l.drop 2))
  if ns = [[]] then none else some ns

/-- Does a line begin with `%`? -/
def isComment (l : Str) : Bool := decide (l.head? = some '%')

/-- Does a comment line hold names? -/
def holdsNames (l : Str) : Bool := decide (l[1]? = some '#')

/-- The loop over the comment lines (_createHelpers.py:2679-2696). -/
def scan (seen : Bool) (p f : Option (List Str)) : List Str → Option (List Str) × Option (List Str)
  | [] => (p, f)
  | l :: ls =>
    if isComment l then
      if holdsNames l then
        if seen then scan true p (namesOf l) ls else scan true (namesOf l) f ls
      else scan seen p f ls
    else (p, f)

/-- The names `_loadmtxForAuto` returns for a file. -/
def loadNames (text : Str) : Option (List Str) × Option (List Str) := scan false none none (splitLines text)

/-! ## Values of a List object -/

variable {V : Type}

/-- The values in the order they are written (list.py:256-259). -/
def valuesWritten (rows : List (List V)) (nF : Nat) : List V :=
  (List.range nF).flatMap (fun j => rows.filterMap (fun r => r[j]?))

/-- A file in array format read by `mmread`: `nP` rows, `nF` columns, the values column by column. -/
def readArray (nP nF : Nat) (vals : List V) : List (List V) :=
  (List.range nP).map (fun i => (List.range nF).filterMap (fun j => vals[j * nP + i]?))

end Nimble.Mtx
