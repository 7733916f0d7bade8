import Verif.Py
import Mathlib.Data.Rat.Defs

/-!
# Removing duplicate coordinates from a coordinate-format matrix

`removeDuplicatesNative` (`nimble/_utility.py:370-437`).  A coordinate matrix is the list of its
stored entries `((row, col), value)`, i.e. the zip of `coo.row`, `coo.col` and `coo.data`; the shape
is passed through unchanged (435-436) and not represented.  Values are numbers (exact rationals) or
text.  Python's `float(text)` is a parameter `parse`; the texts `'nan'` and `'inf'` are outside the
model.  The choice of the numpy dtype (409-411, 427-434) is not represented.
-/

namespace Nimble
namespace SparseDup

/-- A stored value. -/
inductive SVal where
  | num (r : Rat)
  | txt (s : String)
  deriving DecidableEq

/-- One stored entry: coordinates and value. -/
abbrev Entry := (Nat × Nat) × SVal

/-- `float(v)` (_utility.py:400): text that does not denote a number raises `ValueError`. -/
def toFloat (parse : String → Option Rat) : SVal → Res Rat
  | .num r => .ok r
  | .txt s =>
    match parse s with
    | some r => .ok r
    | none => .error .ValueError

/-- `seen[(i, j)] += float(v)` (_utility.py:399-405): `float(v)` is evaluated first; a text to which
a number is added raises `TypeError`, which the `except ValueError` does not catch. -/
def addTo (parse : String → Option Rat) (old v : SVal) : Res SVal := do
  let r ← toFloat parse v
  match old with
  | .num a => return .num (a + r)
  | .txt _ => .error .TypeError

/-- The local variables of the loop (_utility.py:388-390). -/
structure St where
  seen : PyDict (Nat × Nat) SVal := []
  duplicates : Bool := false
  zeroInData : Bool := false
  deriving DecidableEq

/-- One iteration of the loop (_utility.py:391-405). -/
def step (parse : String → Option Rat) (st : St) (e : Entry) : Res St :=
  let z := st.zeroInData || decide (e.2 = .num 0)
  match PyDict.get? st.seen e.1 with
  | none => .ok ⟨PyDict.set st.seen e.1 e.2, st.duplicates, z⟩
  | some old => do
    let v ← addTo parse old e.2
    return ⟨PyDict.set st.seen e.1 v, true, z⟩

/-- The whole loop (_utility.py:391-405). -/
def loop (parse : String → Option Rat) : St → List Entry → Res St
  | st, [] => .ok st
  | st, e :: es => do
    let st' ← step parse st e
    loop parse st' es

/-- `removeDuplicatesNative` (_utility.py:370-437). -/
def removeDuplicates (parse : String → Option Rat) (es : List Entry) : Res (List Entry) := do
  let st ← loop parse {} es
  if !st.duplicates && !st.zeroInData then return es
  else return st.seen.filter (fun p => decide (p.2 ≠ .num 0))

end SparseDup
end Nimble
