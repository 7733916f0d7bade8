import Verif.Model.Elements

/-!
# `calculateOnElements`, `matchingElements`, `countElements`

`Base.calculateOnElements` (base.py:823-962), `Base._calculate_backend` (base.py:1079-1125),
`_calculate_genericVectorized` (base.py:1127-1146), `DataFrame._calculate_implementation` (dataframe.py:114-130),
`Sparse._calculate_implementation` (sparse.py:201-239), `Base.matchingElements` (base.py:966-1077),
`wrapMatchFunctionFactory` (_dataHelpers.py:515-551), `Base.countElements` (base.py:1149-1196).  The array an object is
converted to holds the elements themselves (numpy may store 1 as 1.0).  Functions have no state.  Objects of more than
two dimensions and views of Sparse objects are not modelled, nor are paths and log entries.
-/

namespace Nimble.Elements
open Nimble.Match Nimble.LearnFill Nimble.Obj

/-- The types numpy gives to an array made of one element. -/
inductive OT where
  | bool
  | int
  | float
  | str
  | obj
  deriving DecidableEq

/-- `np.asarray(output).dtype` (`np.vectorize`). -/
def outType : Val → OT
  | .none => .obj
  | .bool _ _ => .bool
  | .int _ _ => .int
  | .flt _ _ => .float
  | .str _ => .str

/-- Python's `int(s)`, `float(s)` and `str(v)`. -/
structure Conv where
  int : String → Option Int
  float : String → Option Flt
  str : Val → String

/-- `int(v)`: a float is cut off. -/
def asInt (P : Conv) : Val → Option Val
  | .none => none
  | .bool _ b => some (.int true (if b then 1 else 0))
  | .int _ i => some (.int true i)
  | .flt _ (.fin q) => some (.int true (q.num.tdiv q.den))
  | .flt _ _ => none
  | .str s => (P.int s).map (.int true)

/-- `float(v)`; numpy takes `None` for nan. -/
def asFloat (P : Conv) : Val → Option Val
  | .str s => (P.float s).map (.flt true)
  | v => some (toFloat v)

/-- `str(v)`. -/
def asString (P : Conv) : Val → Val
  | .str s => .str s
  | v => .str (P.str v)

/-- An element of an object array in an array of the type. -/
def castTo (P : Conv) (t : OT) (v : Val) : Option Val :=
  match t with
  | .bool => some (.bool true (truth v))
  | .int => asInt P v
  | .float => asFloat P v
  | .str => some (asString P v)
  | .obj => some v

/-- All or nothing. -/
def castRows (P : Conv) (t : OT) (rows : List (List Val)) : Option (List (List Val)) :=
  rows.mapM (fun r => r.mapM (castTo P t))

/-- `np.vectorize(f)(array)` makes all outputs elements of the type of the first one; if that fails, or there are none,
the second try keeps them as they are (base.py:1140-1146). -/
def asFirst (P : Conv) (rows : List (List Val)) : List (List Val) :=
  match rows.flatten.head? with
  | none => rows
  | some w => (castRows P (outType w) rows).getD rows

/-- Which object: a DataFrame calculates with pandas (dataframe.py:114-130), the others with a numpy array. -/
inductive Kind where
  | array
  | frame
  deriving DecidableEq

/-- `if not points: points = list(range(len(self.points)))` (base.py:1098-1101, 1129-1136): an empty list counts as
`None`. -/
def orAll (n : Nat) : Option (List Nat) → List Nat
  | none => List.range n
  | some [] => List.range n
  | some (i :: l) => i :: l

/-- `slice(None)` for `None` (dataframe.py:116-121): an empty list selects nothing. -/
def orSlice (n : Nat) : Option (List Nat) → List Nat
  | none => List.range n
  | some l => l

/-- The indices which are calculated on. -/
def chosenIdx (kind : Kind) (oneArg : Bool) (n : Nat) (l : Option (List Nat)) : List Nat :=
  if kind = .frame ∧ oneArg = true then orSlice n l else orAll n l

/-- One value of the result. -/
def calcAt (g : Val → Nat → Nat → Res Val) (o : Obj Val) (i j : Nat) : Res Val :=
  match o.elem? i j with
  | none => .error .IndexError
  | some v => g v i j

/-- The values of the result (base.py:1106-1117, 1139-1146). -/
def calcRows (g : Val → Nat → Nat → Res Val) (o : Obj Val) (ps fs : List Nat) : Res (List (List Val)) :=
  mapRes (fun i => mapRes (fun j => calcAt g o i j) fs) ps

/-- Names '0', '1', ... (`str(i) for i in rawData.columns.tolist()`, _createHelpers.py:470-475). -/
def rangeNames (n : Nat) : List (Option String) := (List.range n).map (fun i => some (toString i))

/-- `nimble.data(frame, treatAsMissing=[None])` (base.py:1119, _createHelpers.py:456-477): if the first row looks like
names, the labels of the frame (numbers) are the names. -/
def newFrameObject (str : Val → String) (nP nF : Nat) (rows : List (List Val)) : Res (Obj Val) :=
  let d := if nF = 0 then (false, false) else autoDetect (valOps str) .auto .auto rows
  Obj.make (replaceMissing (valOps str) rows) nP nF (if d.1 then some (rangeNames nP) else none)
    (if d.2 then some (rangeNames nF) else none)

/-- The array in the end: only what comes from `np.vectorize` is cast. -/
def finalRows (P : Conv) (kind : Kind) (oneArg : Bool) (rows : List (List Val)) : List (List Val) :=
  if kind = .array ∧ oneArg = true then asFirst P rows else rows

/-- The new object (base.py:1119-1120). -/
def madeObject (P : Conv) (kind : Kind) (oneArg : Bool) (nP nF : Nat) (rows : List (List Val)) : Res (Obj Val) :=
  if kind = .frame ∧ oneArg = true then newFrameObject P.str nP nF rows
  else newObject P.str nP nF (finalRows P kind oneArg rows)

/-- `_calculate_backend` (base.py:1079-1125). -/
def calcBackend (P : Conv) (kind : Kind) (oneArg : Bool) (g : Val → Nat → Nat → Res Val) (points features : Limit)
    (o : Obj Val) : Res (Obj Val) := do
  let l ← limits o points features
  let ps := chosenIdx kind oneArg o.pts.len l.1
  let fs := chosenIdx kind oneArg o.fts.len l.2
  let rows ← calcRows g o ps fs
  madeObject P kind oneArg ps.length fs.length rows

/-- `calculateOnElements` (base.py:955-962); for `Sparse` objects with `preserveZeros=False`, see `sparseCalc`. -/
def calculateOnElements (P : Conv) (kind : Kind) (fn : Fn) (preserveZeros skipNone : Bool) (points features : Limit)
    (o : Obj Val) : Res (Obj Val) :=
  calcBackend P kind fn.oneArg (fn.validated preserveZeros skipNone) points features o

/-! ## Sparse with `preserveZeros=True` -/

/-- A stored entry: row, column, value. -/
abbrev Entry := Nat × Nat × Val

/-- The stored entries, by points. -/
def entries (o : Obj Val) : List Entry :=
  ((cells o.pts.len o.fts.len).filter (stored o)).map (fun p => (p.1, p.2, (o.elem? p.1 p.2).getD .none))

/-- `if row[idx] in points and col[idx] in features` for one entry (sparse.py:228); `in None` is a TypeError. -/
def inSubset (l : Option (List Nat) × Option (List Nat)) (e : Entry) : Res Bool :=
  match l.1, l.2 with
  | none, _ => .error .TypeError
  | some ps, fs =>
    if e.1 ∈ ps then
      match fs with
      | none => .error .TypeError
      | some fs => .ok (decide (e.2.1 ∈ fs))
    else .ok false

/-- The loop of sparse.py:224-231. -/
def subset (l : Option (List Nat) × Option (List Nat)) : List Entry → Res (List Entry)
  | [] => .ok []
  | e :: es => do
    let b ← inSubset l e
    let r ← subset l es
    return if b then e :: r else r

/-- The largest of the numbers and one more: the shape scipy infers (sparse.py:233-234). -/
def extent (l : List Nat) : Nat := l.foldl (fun m i => max m (i + 1)) 0

/-- The dense rows of the entries. -/
def denseRows (nP nF : Nat) (es : List Entry) : List (List Val) :=
  (List.range nP).map (fun i => (List.range nF).map (fun j =>
    ((es.find? (fun e => e.1 == i && e.2.1 == j)).map (fun e => e.2.2)).getD (.int true 0)))

/-- The values of the entries, calculated: `function(data)` (sparse.py:212-216, 232).  (In the subset nothing is
retried.) -/
def calcEntries (g : Val → Nat → Nat → Res Val) : List Entry → Res (List Entry)
  | [] => .ok []
  | e :: es => do
    let w ← g e.2.2 e.1 e.2.1
    let r ← calcEntries g es
    return (e.1, e.2.1, w) :: r

/-- The values get the type of the first one (`np.vectorize`, sparse.py:212-216). -/
def retype (P : Conv) (es : List Entry) : List Entry :=
  es.zipWith (fun e v => (e.1, e.2.1, v)) (asFirst P [es.map (fun e => e.2.2)]).flatten

/-- The result for the chosen points and features: the entries keep their own row and column numbers (sparse.py:223-237).
An empty subset cannot be vectorized. -/
def sparseSubset (P : Conv) (g : Val → Nat → Nat → Res Val) (es : List Entry) : Res (Obj Val) :=
  if es = [] then .error .ValueError
  else do
    let r ← calcEntries g es
    let nP := extent (es.map (fun e => e.1))
    let nF := extent (es.map (fun e => e.2.1))
    newObject P.str nP nF (denseRows nP nF r)

/-- `calculateOnElements(f, points, features, preserveZeros=True)` of a `Sparse` object and a function of one argument
(sparse.py:201-239).  For a subset only functions whose results have one type are modelled. -/
def sparseCalc (P : Conv) (g : Val → Nat → Nat → Res Val) (points features : Limit) (o : Obj Val) : Res (Obj Val) := do
  let l ← limits o points features
  if l.1 = none ∧ l.2 = none then do
    let r ← calcEntries g (entries o)
    newObject P.str o.pts.len o.fts.len (denseRows o.pts.len o.fts.len (retype P r))
  else do
    let es ← subset l (entries o)
    sparseSubset P g es

/-! ## matchingElements and countElements -/

/-- A function to match: it takes the value, or the value and its position. -/
inductive Matcher where
  | one (f : Val → Res Val)
  | three (f : Val → Nat → Nat → Res Val)

/-- `matchFunc(0, 0, 0)`: a function of one argument refuses three (_dataHelpers.py:523-524). -/
def Matcher.probe : Matcher → Res Val
  | .one _ => .error .TypeError
  | .three f => f zeroVal 0 0

/-- How the function is called: `except TypeError` means one argument (_dataHelpers.py:523-547).  A function of three
arguments then refuses one. -/
def Matcher.call (m : Matcher) (oneArg : Bool) (v : Val) (i j : Nat) : Res Val :=
  match m with
  | .one f => f v
  | .three f => if oneArg then .error .TypeError else f v i j

/-- `ret not in [True, False]`, `bool(ret)` (_dataHelpers.py:528-533). -/
def asBool (r : Val) : Res Val :=
  if pyEq r (.bool false true) || pyEq r (.bool false false) then .ok (.bool false (truth r))
  else .error .InvalidArgumentValue

/-- `wrappedMatch` (_dataHelpers.py:526-545). -/
def Matcher.wrapped (m : Matcher) (oneArg : Bool) (v : Val) (i j : Nat) : Res Val := do
  let r ← m.call oneArg v i j
  asBool r

/-- Is the function called with one argument?  Other exceptions are not caught (_dataHelpers.py:523-536). -/
def Matcher.detect (m : Matcher) : Res Bool :=
  match m.probe with
  | .ok _ => .ok false
  | .error .TypeError => .ok true
  | .error e => .error e

/-- The names of the result along an axis (base.py:1066-1073). -/
def matchNames (a : AxisSt) (l : Option (List Nat)) : Option (List (Option String)) :=
  match a.getNamesNoGen, l with
  | none, _ => none
  | some n, none => some n
  | some n, some l => some (pick n l)

/-- `ret.points.setNames(pnames)` (base.py:1074-1075). -/
def giveNames (a : AxisSt) : Option (List (Option String)) → Res AxisSt
  | none => a.setNames .none
  | some l => a.setNames (.list l)

/-- `matchingElements` (base.py:966-1077). -/
def matchingElements (P : Conv) (kind : Kind) (m : Matcher) (points features : Limit) (o : Obj Val) :
    Res (Obj Val) := do
  let oneArg ← m.detect
  let ret ← calcBackend P kind oneArg (m.wrapped oneArg) points features o
  let l ← limits o points features
  let p ← giveNames ret.pts (matchNames o.pts l.1)
  let f ← giveNames ret.fts (matchNames o.fts l.2)
  return ⟨ret.data, p, f⟩

/-- The number in an element of the array, for `np.sum`. -/
def number : Val → Rat
  | .bool _ b => if b then 1 else 0
  | .int _ i => i
  | .flt _ (.fin q) => q
  | _ => 0

/-- `int(np.sum(ret._data))`, for arrays of finite numbers (base.py:1196). -/
def sumData (rows : List (List Val)) : Int := let q := (rows.map (fun r => (r.map number).sum)).sum; q.num.tdiv q.den

/-- `countElements` (base.py:1149-1196). -/
def countElements (P : Conv) (kind : Kind) (fn : Fn) (o : Obj Val) : Res Int := do
  let ret ← calculateOnElements P kind fn false false .all .all o
  return sumData ret.data

end Nimble.Elements
