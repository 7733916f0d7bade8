import Verif.Model.Obj

/-!
# Indexing: `obj[x, y]`, `obj.points[x]`, `obj.features[y]`
(`Base.__getitem__` base.py:2102-2178, `Axis._getitem` axis.py:363-374, `_processMultiple`
axis.py:1047-1098)
-/

namespace Nimble

/-- An element of a list key: a boolean or an identifier. -/
inductive KeyEl where
  | bool (b : Bool)
  | id (i : Ident)
  deriving DecidableEq

/-- A key for several points/features: a slice or an iterable. -/
inductive MultiKey where
  | slice (start stop : Option Ident) (step : Option Int)
  | list (els : List KeyEl)

/-- A key for one axis. -/
inductive AxKey where
  | single (i : Ident)
  | multi (k : MultiKey)

/-- `bool(v)`. -/
def KeyEl.truthy : KeyEl → Bool
  | .bool b => b
  | .id (.int i) => decide (i ≠ 0)
  | .id (.str s) => decide (s ≠ "")
  | .id (.flt q) => decide (q ≠ 0)

/-- `isinstance(v, bool)`. -/
def KeyEl.isBool : KeyEl → Bool
  | .bool _ => true
  | .id _ => false

/-- A boolean used as an identifier is the integer 1 or 0. -/
def KeyEl.ident : KeyEl → Ident
  | .bool b => .int (if b then 1 else 0)
  | .id i => i

/-- `list(range(start, stop, step))` for `step ≠ 0`. -/
def pyRange (start stop step : Int) : List Int :=
  if 0 < step then (List.range ((stop - start + step - 1) / step).toNat).map (fun (k : Nat) => start + k * step)
  else (List.range ((start - stop - step - 1) / (-step)).toNat).map (fun (k : Nat) => start + k * step)

/-- The identifier of a slice end, with its default (axis.py:1063-1068). -/
def sliceEnd (a : AxisSt) (id : Option Ident) (dflt : Int) : Res Int :=
  a.getIndex (id.getD (.int dflt)) (allowFloats := true)

/-- The list a slice denotes, or `None` for the whole axis (axis.py:1060-1076). -/
def processSlice (a : AxisSt) (start stop : Option Ident) (step : Option Int) :
    Res (Option (List Int)) := do
  if start.isNone && stop.isNone && step.isNone then return none
  else
    let st ← sliceEnd a start 0
    let en ← sliceEnd a stop ((a.len : Int) - 1)
    let s := step.getD 1
    if st = 0 ∧ en = (a.len : Int) - 1 ∧ s = 1 then return none
    else if s = 0 then .error .ValueError
    else if 0 < s then return some (pyRange st (en + 1) s)
    else return some (pyRange st (en - 1) s)

/-- `[self._getIndex(i, allowFloats=True) for i in key]` (axis.py:1088). -/
def keyIndices (a : AxisSt) : List Ident → Res (List Int)
  | [] => .ok []
  | i :: is => do
    let k ← a.getIndex i (allowFloats := true)
    let ks ← keyIndices a is
    return k :: ks

/-- `[i for i, v in enumerate(key) if v]` (axis.py:1081). -/
def truePositions (els : List KeyEl) : List Int :=
  (els.zipIdx.filter (fun p => p.1.truthy)).map (fun p => (p.2 : Int))

/-- `_processMultiple(key)` (axis.py:1047-1098). -/
def processMultiple (a : AxisSt) : MultiKey → Res (Option (List Int))
  | .slice start stop step => processSlice a start stop step
  | .list els => do
    let numBool := (els.filter KeyEl.isBool).length
    if numBool = a.len then return some (truePositions els)
    else if 0 < numBool then .error .KeyError
    else
      let ks ← keyIndices a (els.map KeyEl.ident)
      if ks = (List.range a.len).map (fun (i : Nat) => (i : Int)) then return none
      else if ks.Nodup then return some ks
      else .error .KeyError

/-- A key for one axis as a list of indices, `None` for the whole axis (base.py:2141-2164). -/
def axisKey (a : AxisSt) : AxKey → Res (Option (List Int))
  | .single i => (a.getIndex i (allowFloats := true)).map (fun k => some [k])
  | .multi k => processMultiple a k

/-- Python list indexing: a negative index counts from the end. -/
def pyIndex (n : Nat) (i : Int) : Res Nat :=
  if 0 ≤ i ∧ i < n then .ok i.toNat
  else if i < 0 ∧ 0 ≤ (n : Int) + i then .ok ((n : Int) + i).toNat
  else .error .IndexError

def pyIndices (n : Nat) : List Int → Res (List Nat)
  | [] => .ok []
  | i :: is => do
    let k ← pyIndex n i
    let ks ← pyIndices n is
    return k :: ks

namespace Obj
variable {V : Type}

/-- `_structuralBackend_implementation('copy', idx)` (listAxis.py:55-96); `None` is no selection.
An index out of range (a float) raises; the code does not notice it when the other axis is empty. -/
def backendCopy (o : Obj V) (ax : Ax) : Option (List Int) → Res (Obj V)
  | none => .ok o
  | some idx => do
    let l ← pyIndices (o.axis ax).len idx
    o.selected ax l

/-- `obj.points[key]` / `obj.features[key]` (axis.py:363-374). -/
def axisGetitem (o : Obj V) (ax : Ax) (k : AxKey) : Res (Obj V) := do
  let idx ← axisKey (o.axis ax) k
  o.backendCopy ax idx

/-- The result of `obj[x, y]`: an element or an object. -/
inductive Item (V : Type) where
  | elem (v : V)
  | obj (o : Obj V)

/-- `self._data[x][y]` (list.py:535-536). -/
def getElem (o : Obj V) (x y : Int) : Res V := do
  let i ← pyIndex o.pts.len x
  let j ← pyIndex o.fts.len y
  match o.elem? i j with
  | some v => return v
  | none => .error .IndexError

/-- `obj[x, y]` when at least one key is no single identifier (base.py:2156-2178). -/
def getitemMany (o : Obj V) (x y : AxKey) : Res (Obj V) := do
  let xs ← axisKey o.pts x
  let ys ← axisKey o.fts y
  let r ← o.backendCopy .point xs
  r.backendCopy .feature ys

/-- `obj[x, y]` (base.py:2141-2178). -/
def getitem (o : Obj V) (x y : AxKey) : Res (Item V) :=
  match x, y with
  | .single i, .single j => do
    let a ← o.pts.getIndex i (allowFloats := true)
    let b ← o.fts.getIndex j (allowFloats := true)
    let v ← o.getElem a b
    return .elem v
  | x, y => (o.getitemMany x y).map Item.obj

/-- `key in names` where `names` are the created names (base.py:2102-2110, 2122-2130). -/
def keyNamed (a : AxisSt) : AxKey → Bool
  | .single (.str s) => a.namesCreated && decide (some s ∈ a.getNames)
  | _ => false

/-- `slice(None)`. -/
def fullSlice : AxKey := .multi (.slice none none none)

/-- `obj[key]` with a key that is no tuple (base.py:2115-2138).  (`key in names` is modelled for
identifiers only; iterables are never members.) -/
def getitemOne (o : Obj V) (k : AxKey) : Res (Item V) :=
  if o.pts.len = 1 then o.getitem (.single (.int 0)) k
  else if o.fts.len = 1 then o.getitem k (.single (.int 0))
  else if keyNamed o.pts k && !keyNamed o.fts k then o.getitem k fullSlice
  else if keyNamed o.fts k && !keyNamed o.pts k then o.getitem fullSlice k
  else .error .InvalidArgumentType

/-! ## `obj[x, y] = value` (base.py:2233-2260) -/

/-- `self._data[x][y] = value` (list.py:538-539). -/
def setElem (o : Obj V) (x y : Int) (v : V) : Res (Obj V) := do
  let i ← pyIndex o.pts.len x
  let j ← pyIndex o.fts.len y
  return { o with data := o.data.modify i (fun r => r.set j v) }

/-- The index, or the list of indices, of one key (base.py:2240-2252). -/
def setKey (a : AxisSt) : AxKey → Res (Int ⊕ Option (List Int))
  | .single i => (a.getIndex i (allowFloats := true)).map Sum.inl
  | .multi k => (processMultiple a k).map Sum.inr

/-- Python iterates over the list; `None` (a full slice) and a single index are not iterable
(base.py:2258-2259). -/
def setIter : Int ⊕ Option (List Int) → Res (List Int)
  | .inl _ => .error .TypeError
  | .inr none => .error .TypeError
  | .inr (some l) => .ok l

/-- The nested loops (base.py:2258-2260) with the state at an exception. -/
def setLoop (v : V) : List (Int × Int) → Obj V → Obj V × Res Unit
  | [], o => (o, .ok ())
  | p :: ps, o => match o.setElem p.1 p.2 v with
    | .error e => (o, .error e)
    | .ok o' => setLoop v ps o'

/-- The cells in the order in which they are written. -/
def cells (xs ys : List Int) : List (Int × Int) := xs.flatMap (fun i => ys.map (fun j => (i, j)))

/-- `for i in x: for j in y: ..` where evaluating `iter(y)` raises only when there is an `i`. -/
def setMany (o : Obj V) (x y : Int ⊕ Option (List Int)) (v : V) : Obj V × Res Unit :=
  match setIter x with
  | .error e => (o, .error e)
  | .ok xs => if xs.isEmpty then (o, .ok ()) else match setIter y with
    | .error e => (o, .error e)
    | .ok ys => setLoop v (cells xs ys) o

/-- `obj[x, y] = value` (base.py:2238-2260). -/
def setitem (o : Obj V) (x y : AxKey) (v : V) : Obj V × Res Unit :=
  match setKey o.pts x with
  | .error e => (o, .error e)
  | .ok a => match setKey o.fts y with
    | .error e => (o, .error e)
    | .ok b => match a, b with
      | .inl i, .inl j => match o.setElem i j v with
        | .error e => (o, .error e)
        | .ok o' => (o', .ok ())
      | a, b => o.setMany a b v

end Obj
end Nimble
