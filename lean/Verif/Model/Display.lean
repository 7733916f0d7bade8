import Verif.Py

/-!
# Which points and features `toString` shows (base.py:2495-2676, 5689-5905, _dataHelpers.py:161-191)

The formatting of single values and names is not modelled: the width of a column is a parameter.
-/

namespace Nimble

/-- `indicesSplit(numAllow, iRange)` (_dataHelpers.py:161-191), `iRange` is
`range(start, start + total)`. -/
def indicesSplit (numAllow : Int) (start : Int) (total : Nat) : Res (List Int × List Int) :=
  let numAllow := if numAllow < (total : Int) then numAllow - 1 else numAllow
  if numAllow = 1 ∨ total = 1 then .ok ([0], [])
  else
    let forward := ((numAllow + 1) / 2).toNat
    let backward := (numAllow / 2).toNat
    let f : List Int := (List.range forward).map (fun (k : Nat) => (k : Int))
    let b : List Int := (List.range backward).map (fun (k : Nat) => (k : Int) - (backward : Int) + (total : Int))
    match f.getLast?, b.head? with
    | some x, some y =>
      let b := if x = y then b.tail else b
      .ok (f.map (fun x => start + x), b.map (fun x => start + x))
    | _, _ => .error .IndexError

/-- The argument `points` of `toString`: `None`, a number or `range(start, stop)` (its step is not
looked at, base.py:2684-2686). -/
inductive PrintTarget where
  | none
  | int (k : Int)
  | range (start stop : Int)

/-- `_validateAndTruncatePrintTarget` (base.py:2676-2696): a bound outside the axis is assigned to
an item of a tuple. -/
def validateTarget (start stop : Int) (n : Nat) : Res Unit :=
  if start < 0 then .error .TypeError
  else if (n : Int) < stop then .error .TypeError
  else .ok ()

/-- `numPoints` and `pRange` (base.py:2569-2580): number to show, start and length of the range. -/
def resolveTarget (n : Nat) : PrintTarget → Res (Int × Int × Nat)
  | .none => .ok (n, 0, n)
  | .int k => .ok (min k n, 0, n)
  | .range a b => do
    validateTarget a b n
    return ((b - a).toNat, a, (b - a).toNat)

/-- `maxDataRows` (base.py:2591-2598). -/
def maxDataRows (numPoints : Int) : Option Int → Res Int
  | none => .ok numPoints
  | some limit =>
    let m := min (limit - 2) numPoints
    if m ≤ 1 ∧ m < numPoints then .error .InvalidArgumentValue
    else .ok m

/-- What is shown of the points: the indices above and below the placeholder row, and whether there
is a placeholder row. -/
structure ShownRows where
  top : List Int
  bottom : List Int
  hold : Bool
  deriving DecidableEq, Repr

/-- The points shown by `toString(points, lineLimit)` for an object with `n` points and at least one
feature (base.py:2569-2619, 5700-5704, 5764-5768, 5787-5804).  `indicesSplit` is called twice with
the same arguments. -/
def shownRows (n : Nat) (points : PrintTarget) (lineLimit : Option Int) : Res ShownRows := do
  let t ← resolveTarget n points
  let m ← maxDataRows t.1 lineLimit
  if n = 0 then
    if m < 2 ∧ m ≠ 0 then .error .InvalidArgumentValue else return ⟨[], [], false⟩
  else
    let ids ← indicesSplit m t.2.1 t.2.2
    if m < 2 ∧ m ≠ (n : Int) then .error .InvalidArgumentValue
    else if 0 < t.1 then
      return ⟨ids.1, ids.2, decide (((ids.1 ++ ids.2).length : Int) < t.1)⟩
    else return ⟨[], [], false⟩

/-! ## The loop over the columns -/

/-- The variables of the loop (base.py:5806-5835): `currIndex`, `totalWidth`, `numAdded` and the
columns put in the left and in the right table so far.  Columns are counted from `fOffset`. -/
structure ColSt where
  cur : Int
  total : Int
  added : Nat
  left : List Nat
  right : List Nat
  deriving DecidableEq, Repr

/-- `len(colSep)` and `cHoldTotal = len(colSep) + len(colHold)` (base.py:2547-2548, 5770-5771). -/
def colSepLen : Int := 2
def cHoldTotal : Int := 4

/-- `endIndex` (base.py:5821-5824). -/
def endIndex (numFts : Nat) : Int :=
  if numFts % 2 = 1 then -((numFts / 2 : Nat) : Int) - 1 else ((numFts / 2 : Nat) : Int)

/-- `accessIndex - fOffset` (base.py:5833, 5891, 5896). -/
def accessIndex (numFts : Nat) (cur : Int) : Nat :=
  (if cur < 0 then (numFts : Int) + cur else cur).toNat

/-- The condition of the loop (base.py:5841). -/
def colLoops (numFts : Nat) (maxWidth : Int) (s : ColSt) : Bool :=
  decide (s.total < maxWidth) && decide (s.cur ≠ endIndex numFts)

/-- The body of the loop (base.py:5842-5903); `w j` is `max(nameWidth, valWidth)` of column `j`. -/
def colBody (numFts : Nat) (w : Nat → Nat) (maxWidth : Int) (s : ColSt) : ColSt :=
  let j := accessIndex numFts s.cur
  let total := s.total + (w j : Int)
  let s' : ColSt :=
    if total ≤ maxWidth then
      if s.cur < 0 then ⟨-s.cur, total, s.added + 1, s.left, s.right ++ [j]⟩
      else ⟨-s.cur - 1, total, s.added + 1, s.left ++ [j], s.right⟩
    else { s with total := total }
  let total := if (s'.added : Int) = (numFts : Int) - 1 then s'.total - cHoldTotal else s'.total
  { s' with total := total + colSepLen }

/-- The loop, cut off after `fuel` iterations; `none` when it has not ended by then. -/
def colLoop (numFts : Nat) (w : Nat → Nat) (maxWidth : Int) : Nat → ColSt → Option ColSt
  | 0, _ => none
  | fuel + 1, s =>
    if colLoops numFts maxWidth s then colLoop numFts w maxWidth fuel (colBody numFts w maxWidth s)
    else some s

/-- The start of the loop (base.py:5810-5833). -/
def colInit : ColSt := ⟨0, cHoldTotal, 0, [], []⟩

/-- The columns shown left and right of the placeholder column, and whether there is one
(base.py:5905-5931). -/
structure ShownCols where
  left : List Nat
  right : List Nat
  hold : Bool
  deriving DecidableEq, Repr

def shownCols (numFts : Nat) (w : Nat → Nat) (maxWidth : Int) (fuel : Nat) : Option ShownCols :=
  (colLoop numFts w maxWidth fuel colInit).map
    (fun s => ⟨s.left, s.right.reverse, decide (s.added ≠ numFts)⟩)

end Nimble
