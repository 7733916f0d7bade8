import Verif.Model.Csv
import Verif.Model.Sparse

/-!
# Saving a `Sparse` object to a csv file (`nimble/core/data/sparse.py:292-324`)

The names, the refusal of empty objects and the first line are the code modelled in `Model/Csv`
(base.py:1850-1922).  `text` is `str(value)` (a text of an element which is not a string contains no comma), `zt` is
`str(dtype.type(0))`.
-/

namespace Nimble.SpCsv
open Csv Sp
variable {V : Type}

/-- `pointer < pmax and i == row[pointer] and j == col[pointer]` (sparse.py:315-316); the list are the entries from the
pointer on. -/
def isNext (i j : Nat) : List (Ent V) → Bool
  | [] => false
  | e :: _ => decide (i = e.row ∧ j = e.col)

/-- The text of one element (sparse.py:315-323). -/
def cellText (text : V → Str) (zt : Str) (i j : Nat) (es : List (Ent V)) : Str :=
  match isNext i j es, es with
  | true, e :: _ => csvCommaFormat (text e.val)
  | _, _ => zt

/-- The pointer after an element (sparse.py:318). -/
def advance (i j : Nat) (es : List (Ent V)) : List (Ent V) := if isNext i j es then es.tail else es

/-- The loop over the features `js` of point `i` (sparse.py:314-323): the texts and the entries left. -/
def walkRow (text : V → Str) (zt : Str) (i : Nat) : List Nat → List (Ent V) → List Str × List (Ent V)
  | [], es => ([], es)
  | j :: js, es =>
    let r := walkRow text zt i js (advance i j es)
    (cellText text zt i j es :: r.1, r.2)

/-- The loop over the points `is` (sparse.py:308-324). -/
def walkRows (text : V → Str) (zt : Str) (cols : Nat) : List Nat → List (Ent V) → List (List Str)
  | [], _ => []
  | i :: is, es =>
    let r := walkRow text zt i (List.range cols) es
    r.1 :: walkRows text zt cols is r.2

/-- The line of a point (sparse.py:309-324). -/
def line (name : Option Str) (cells : List Str) : Str :=
  match name with
  | none => joinComma cells ++ ['\n']
  | some n => csvCommaFormat n ++ ',' :: (joinComma cells ++ ['\n'])

/-- The lines of the points with their names; `outFile.write(None)` is a `TypeError` (sparse.py:309-312). -/
def namedLines : List (Option Str) → List (List Str) → Res Str
  | none :: _, _ :: _ => .error .TypeError
  | some n :: ns, r :: rs => do
    let rest ← namedLines ns rs
    return line (some n) r ++ rest
  | _, _ => .ok []

/-- The lines of the points. -/
def body (withP : Bool) (pnames : List (Option Str)) (rows : List (List Str)) : Res Str :=
  if withP then namedLines pnames rows else .ok (rows.flatMap (line none))

/-- `save(outPath, fileFormat='csv', includeNames)` of a Sparse object (base.py:1850-1910, sparse.py:292-324): the
object, whose entries are sorted by points from line 302 on, and the text written. -/
def saveCsv (text : V → Str) (zt : Str) (includeNames : Bool) (pnames fnames : Option (List (Option Str)))
    (c : Coo V) : Coo V × Res Str :=
  if c.rows = 0 ∨ c.cols = 0 then (c, .error .ImproperObjectAction)
  else
    let withP := namesSeen includeNames pnames
    match saveHeader (namesSeen includeNames fnames) withP (fnames.getD []) with
    | .error e => (c, .error e)
    | .ok header =>
      let s := c.sortInternal .point false
      match body withP (pnames.getD []) (walkRows text zt s.cols (List.range s.rows) s.ents) with
      | .error e => (s, .error e)
      | .ok b => (s, .ok (header ++ b))

end Nimble.SpCsv
