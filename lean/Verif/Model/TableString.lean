import Verif.Py

/-!
# Tables in text (_utility.py:500-594)

The text of a cell is a list of characters and the cells are texts already: rounding floats and `str` are not
modelled.  `maxRowsToShow` and `snipIndex` are not negative.  The names of the justifications are right
(the `ValueError` at 515-518 is not modelled).
-/

namespace Nimble
namespace TableText

abbrev Txt := List Char

inductive Justify where
  | center
  | left
  | right
  deriving DecidableEq

/-- The options of `tableString` (_utility.py:500-503). -/
structure Opts where
  rowHeader : Bool := true
  sep : Txt := [' ', ' ']
  maxRows : Option Nat := none
  snip : Option Nat := none
  trailing : Bool := true
  rowHead : Justify := .right
  colHead : Justify := .center
  colValue : Justify := .center

/-- The blanks in front of a centred text (CPython's `str.center`, for a text not longer than `w`). -/
def before (len w : Nat) : Nat := (w - len) / 2 + (if (w - len) % 2 = 1 ∧ w % 2 = 1 then 1 else 0)

/-- The justifiers (_utility.py:512-514). -/
def justify (k : Justify) (s : Txt) (w : Nat) : Txt :=
  match k with
  | .left => s ++ List.replicate (w - s.length) ' '
  | .right => List.replicate (w - s.length) ' ' ++ s
  | .center => List.replicate (before s.length w) ' ' ++ s ++
      List.replicate (w - s.length - before s.length w) ' '

/-- The number of columns (_utility.py:527-530). -/
def numCols (t : List (List Txt)) : Nat := t.foldl (fun c row => if row.length > c then row.length else c) 0

/-- The widths after one more row (_utility.py:536-543). -/
def widen : List Nat → List Txt → List Nat
  | [], _ => []
  | ws, [] => ws
  | w :: ws, v :: vs => (if v.length > w then v.length else w) :: widen ws vs

/-- The widths of the columns (_utility.py:532-543). -/
def widths (t : List (List Txt)) : List Nat := t.foldl widen (List.replicate (numCols t) 1)

/-- The widths with the headers (_utility.py:545-548): too many headers are an `IndexError`. -/
def headerWidths (ws : List Nat) : Option (List Txt) → Res (List Nat)
  | none => .ok ws
  | some h => if h.length ≤ ws.length then .ok (widen ws h) else .error .IndexError

/-- The table with the headers as its first row (_utility.py:549-552). -/
def withHeader (headers : Option (List Txt)) (t : List (List Txt)) : List (List Txt) :=
  match headers with
  | none => t
  | some h => h :: t

/-- A row of dots (_utility.py:562-563, 569). -/
def dots (n : Nat) : List Txt := List.replicate n ['.', '.', '.']

/-- Too many rows (_utility.py:557-564): `table[firstToDelete]` is read of the table just cut. -/
def cut (t : List (List Txt)) (m : Nat) : Res (List (List Txt)) :=
  let first := (m + 1) / 2
  let num := t.length - m
  match (t.take first)[first]? with
  | none => .error .IndexError
  | some r =>
    let t' := t.take first ++ [dots r.length]
    .ok (t' ++ t'.drop (first + num))

/-- The row of dots at `snipIndex` (_utility.py:567-570): the rest is read of the table just cut. -/
def snipped (t : List (List Txt)) (s : Nat) : List (List Txt) :=
  let t' := t.take s ++ [dots ((t.take s).headD []).length]
  t' ++ t'.drop (s + 1)

/-- The rows to show (_utility.py:554-570). -/
def shorten (o : Opts) (t : List (List Txt)) : Res (List (List Txt)) :=
  match o.maxRows, o.snip with
  | some m, _ => if t.length - m > 0 then cut t m else .ok t
  | none, some s => if s > 0 then .ok (snipped t s) else .ok t
  | none, none => .ok t

/-- The justification of a cell (_utility.py:575-583). -/
def kind (o : Opts) (header : Bool) (i j : Nat) : Justify :=
  if i > 0 ∧ j > 0 then o.colValue
  else if i = 0 ∧ header = true then o.colHead
  else if j = 0 ∧ o.rowHeader = true then o.rowHead
  else o.colValue

/-- The cells of a row from column `j` on, each as wide as its column (_utility.py:574-583). -/
def padCells (o : Opts) (header : Bool) (i : Nat) : Nat → List Nat → List Txt → List Txt
  | _, _, [] => []
  | _, [], _ => []
  | j, w :: ws, v :: vs => justify (kind o header i j) v w :: padCells o header i (j + 1) ws vs

/-- The separator behind all cells but the last (_utility.py:584-585). -/
def addSep (sep : Txt) : List Txt → List Txt
  | [] => []
  | [f] => [f]
  | f :: g :: fs => (f ++ sep) :: addSep sep (g :: fs)

/-- A row of the table after the loop (_utility.py:573-585). -/
def padRow (o : Opts) (header : Bool) (ws : List Nat) (i : Nat) (row : List Txt) : List Txt :=
  addSep o.sep (padCells o header i 0 ws row)

/-- All rows from row `i` on (_utility.py:573). -/
def padRows (o : Opts) (header : Bool) (ws : List Nat) : Nat → List (List Txt) → List (List Txt)
  | _, [] => []
  | i, row :: rows => padRow o header ws i row :: padRows o header ws (i + 1) rows

/-- The rows one below the other (_utility.py:587-592). -/
def render (o : Opts) (rows : List (List Txt)) : Txt :=
  rows.dropLast.flatMap (fun r => r.flatten ++ ['\n']) ++ (rows.getLastD []).flatten ++
    (if o.trailing = true then ['\n'] else [])

/-- `tableString(table, …)` (_utility.py:500-594): the text, and the caller's `colHeaders` afterwards, which is
the first row of the table in which the cells are replaced. -/
def tableString (t : List (List Txt)) (headers : Option (List Txt)) (o : Opts) :
    Res (Txt × Option (List Txt)) :=
  if t.isEmpty = true then .ok ([], headers)
  else do
    let ws ← headerWidths (widths t) headers
    let rows ← shorten o (withHeader headers t)
    pure (render o (padRows o headers.isSome ws 0 rows), headers.map (padRow o true ws 0))

end TableText
end Nimble
