import Verif.Model.Create
import Verif.Model.Sparse

/-!
# `features.splitByParsing`

features.py:2143-2196 and the representations (matrixAxis.py:273-286, listAxis.py:305-320, sparseAxis.py:490-514).
A feature is addressed by an integer or a name.  Texts are lists of characters.  A list given as `rule` holds integers
and texts only, `resultingNames` texts and `None` only.
-/

namespace Nimble.Parse
open Nimble
variable {V : Type}

/-- A Python text. -/
abbrev Txt := List Char

/-- Which values are texts. -/
structure TextOps (V : Type) where
  asText : V → Option Txt
  ofText : Txt → V

/-- An item of a list given as `rule`. -/
inductive Item where
  | text (s : Txt)
  | pos (i : Int)
  deriving DecidableEq

/-- The `rule` argument. -/
inductive Rule (V : Type) where
  | text (s : Txt)
  | pos (i : Int)
  | items (l : List Item)
  | fn (f : V → Res (List V))

/-- Where a Python slice bound `i` is in a text of length `n`. -/
def bound (n : Nat) (i : Int) : Nat := if i < 0 then (i + n).toNat else min i.toNat n

/-- `value[i:]`. -/
def textFrom (v : Txt) (i : Int) : Txt := v.drop (bound v.length i)

/-- `value[:i]`. -/
def textTo (v : Txt) (i : Int) : Txt := v.take (bound v.length i)

/-- `value[a:b]`. -/
def textBetween (v : Txt) (a b : Int) : Txt := (v.take (bound v.length b)).drop (bound v.length a)

/-- `value.find(sep)`: the first position of `sep`. -/
def findText (sep : Txt) : Txt → Option Nat
  | [] => if sep.isPrefixOf [] then some 0 else none
  | c :: cs => if sep.isPrefixOf (c :: cs) then some 0 else (findText sep cs).map (· + 1)

/-- `value.split(sep)` for a non-empty `sep`; a round uses up at least one character, so `fuel` beyond the length of
the text is never used up. -/
def splitGo (sep : Txt) : Nat → Txt → List Txt
  | 0, v => [v]
  | fuel + 1, v => match findText sep v with
    | none => [v]
    | some k => v.take k :: splitGo sep fuel (v.drop (k + sep.length))

/-- `value.split(sep)`: an empty separator is a `ValueError`. -/
def splitText (sep v : Txt) : Res (List Txt) :=
  if sep = [] then .error .ValueError else .ok (splitGo sep (v.length + 1) v)

/-- One item of a list of rules: the next part and the next `startIdx` (features.py:2161-2171). -/
def itemStep (v : Txt) (start : Int) : Item → Res (Txt × Int)
  | .text s =>
    if s = [] then .error .ValueError
    else match findText s (textFrom v start) with
      | none => .error .ValueError
      | some k => .ok ((textFrom v start).take k, k + (textTo v start).length + 1)
  | .pos i => .ok (textBetween v start i, i)

/-- The loop over the items and the last part (features.py:2158-2177). -/
def splitItems (v : Txt) : Int → List Item → Res (List Txt)
  | start, [] => .ok [textFrom v start]
  | start, it :: its => do
    let p ← itemStep v start it
    let ps ← splitItems v p.2 its
    return p.1 :: ps

/-- A value that is no text has no `split` and no characters. -/
def needText (T : TextOps V) (e : Err) (v : V) : Res Txt :=
  match T.asText v with
  | some w => .ok w
  | none => .error e

/-- The parts of one value (features.py:2153-2179). -/
def splitValue (T : TextOps V) (rule : Rule V) (v : V) : Res (List V) :=
  match rule with
  | .text s => do
    let w ← needText T .AttributeError v
    let ps ← splitText s w
    return ps.map T.ofText
  | .pos i => do
    let w ← needText T .TypeError v
    return [T.ofText (textTo w i), T.ofText (textFrom w i)]
  | .items l => do
    let w ← needText T .TypeError v
    let ps ← splitItems w 0 l
    return ps.map T.ofText
  | .fn f => f v

/-- One round of the loop over the values with the check of the number of parts (features.py:2152-2184). -/
def splitOne (T : TextOps V) (rule : Rule V) (k : Nat) (v : V) : Res (List V) := do
  let ps ← splitValue T rule v
  if ps.length = k then return ps else .error .InvalidArgumentValueCombination

/-- A row of the new data (matrixAxis.py:278-284, listAxis.py:310-318). -/
def splitRow (f : Nat) (row ps : List V) : List V := row.take f ++ ps ++ row.drop (f + 1)

/-- The new names (features.py:2192-2194). -/
def splitNames (old : List (Option String)) (f : Nat) (new : List (Option String)) : List (Option String) :=
  old.take f ++ new ++ old.drop (f + 1)

/-- `features.splitByParsing(feature, rule, resultingNames)` for the dense representations (features.py:2143-2196): the
data and the number of features are replaced before the names are set (2189-2196), and what is left of the object if
that fails.  (For a `List` object without points numpy refuses the empty lists; `Matrix` and `DataFrame` do not.) -/
def splitByParsing (T : TextOps V) (o : Obj V) (id : Ident) (rule : Rule V) (names : List (Option String)) :
    Obj V × Res Unit :=
  match o.fts.getIndex id with
  | .error e => (o, .error e)
  | .ok j =>
    match mapRes (splitOne T rule names.length) (o.vector .feature j.toNat) with
    | .error e => (o, .error e)
    | .ok l =>
      let data := List.zipWith (splitRow j.toNat) o.data l
      let fts : AxisSt := ⟨o.fts.len - 1 + names.length, o.fts.touch.tbl⟩
      match fts.setNames (.list (splitNames o.fts.getNames j.toNat names)) with
      | .error e => (⟨data, o.pts, fts⟩, .error e)
      | .ok a => (⟨data, o.pts, a⟩, .ok ())

/-! ## `Sparse` -/

/-- The type of the stored values: numbers, or any object. -/
inductive Kind where
  | number
  | object
  deriving DecidableEq

/-- Texts among the values, and the text numpy makes of a value. -/
structure KindOps (V : Type) where
  isText : V → Bool
  toText : V → V

/-- `np.array(newFeat)`: with one text all become texts. -/
def asArray (K : KindOps V) (l : List V) : List V := if l.any K.isText then l.map K.toText else l

/-- `np.concatenate((tmpData, newFeat))` (sparseAxis.py:503): numbers next to texts become texts. -/
def concat (K : KindOps V) (kind : Kind) (a l : List V) : List V :=
  if kind = .number ∧ l.any K.isText then a.map K.toText ++ asArray K l else a ++ asArray K l

/-- What is kept of the old entries, shifted (sparseAxis.py:492-498). -/
def keptEnts (f k : Nat) (ents : List (Sp.Ent V)) : List (Sp.Ent V) :=
  (ents.filter (fun e => decide (e.col ≠ f))).map
    (fun e => if f < e.col then { e with col := e.col + k - 1 } else e)

/-- The entries of one new feature (sparseAxis.py:500-508): one per point. -/
def columnEnts (col : Nat) (vals : List V) : List (Sp.Ent V) :=
  vals.mapIdx (fun i v => ⟨i, col, v⟩)

/-- The parts of all values at place `t` (sparseAxis.py:501-503). -/
def partsAt (l : List (List V)) (t : Nat) : List V := l.filterMap (fun ps => ps[t]?)

/-- The loop over the new features, values only of `object` type (sparseAxis.py:500-509). -/
def splitEnts (K : KindOps V) (f : Nat) (l : List (List V)) : List Nat → List (Sp.Ent V)
  | [] => []
  | t :: ts => columnEnts (f + t) (asArray K (partsAt l t)) ++ splitEnts K f l ts

/-- `_splitByParsing_implementation` of `Sparse` with stored values of type `object` (sparseAxis.py:490-514). -/
def splitSparse (K : KindOps V) (c : Sp.Coo V) (f : Nat) (l : List (List V)) (k : Nat) : Sp.Coo V :=
  Sp.Coo.reset { c with
    cols := c.cols - 1 + k
    ents := keptEnts f k c.ents ++ splitEnts K f l (List.range k) }

/-- The values next to the first new feature for any type of the stored values (sparseAxis.py:493, 503). -/
def firstConcat (K : KindOps V) (kind : Kind) (f k : Nat) (c : Sp.Coo V) (new : List V) : List V :=
  concat K kind ((keptEnts f k c.ents).map Sp.Ent.val) new

end Nimble.Parse
