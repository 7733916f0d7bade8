import Verif.Model.Match
import Verif.Model.GetItem
import Verif.Model.Sparse

/-!
# Going through the elements: `iterateElements` (base.py:464-512) and `countUniqueElements` (base.py:1198-1243)

The numpy array an object is copied to is taken as given: its rows and whether its dtype is a number type.  The
iterator reads the array when it is created; changing a Matrix while iterating over it is not modelled.
-/

namespace Nimble.Iter
open Nimble.Match

/-! ## `iterateElements` -/

variable {V : Type}

/-- The argument `order`: a string or something else. -/
inductive OrderArg where
  | str (s : String)
  | other

/-- The argument `only`. -/
inductive OnlyArg (V : Type) where
  | none
  | call (f : V → Res Bool)
  | other

/-- The checks of base.py:505-511 (`order not in [..]` first, then `callable(only)`). -/
def checkArgs (ord : OrderArg) (only : OnlyArg V) : Res (Ax × Option (V → Res Bool)) :=
  match ord with
  | .other => .error .InvalidArgumentType
  | .str s =>
    if s = "point" then
      match only with
      | .none => .ok (.point, none)
      | .call f => .ok (.point, some f)
      | .other => .error .InvalidArgumentType
    else if s = "feature" then
      match only with
      | .none => .ok (.feature, none)
      | .call f => .ok (.feature, some f)
      | .other => .error .InvalidArgumentType
    else .error .InvalidArgumentValue

/-- `NimbleElementIterator` (_dataHelpers.py:728-767): the elements `np.nditer` has still to visit, and `only`. -/
structure It (V : Type) where
  rest : List V
  only : Option (V → Res Bool)

/-- `self.only is None or self.only(val)` (_dataHelpers.py:766). -/
def accepts (only : Option (V → Res Bool)) (v : V) : Res Bool :=
  match only with
  | none => .ok true
  | some f => f v

/-- The loop of `__next__` (_dataHelpers.py:761-767): what is left and the value, `none` for `StopIteration`. -/
def nextIn (only : Option (V → Res Bool)) : List V → List V × Res (Option V)
  | [] => ([], .ok none)
  | v :: vs =>
    match accepts only v with
    | .error e => (vs, .error e)
    | .ok true => (vs, .ok (some v))
    | .ok false => nextIn only vs

/-- `__next__`. -/
def It.next (it : It V) : It V × Res (Option V) := ({ it with rest := (nextIn it.only it.rest).1 }, (nextIn it.only it.rest).2)

/-- What the call number `k` of `__next__` gives. -/
def It.nth (it : It V) : Nat → Res (Option V)
  | 0 => it.next.2
  | k + 1 => it.next.1.nth k

/-- The positions in the order of `np.nditer` with order 'C' or 'F' (_dataHelpers.py:748-754). -/
def visit (ax : Ax) (nP nF : Nat) : List (Nat × Nat) :=
  match ax with
  | .point => (List.range nP).flatMap (fun i => (List.range nF).map (fun j => (i, j)))
  | .feature => (List.range nF).flatMap (fun j => (List.range nP).map (fun i => (i, j)))

/-- The elements of a dense object in that order. -/
def elementsIn (o : Obj V) (ax : Ax) : List V := (visit ax o.pts.len o.fts.len).filterMap (fun p => o.elem? p.1 p.2)

/-- `iterateElements(order, only)` of List, Matrix and DataFrame (base.py:505-512, list.py:654-656, matrix.py:494-495,
dataframe.py:570-571). -/
def iterate (o : Obj V) (ord : OrderArg) (only : OnlyArg V) : Res (It V) := do
  let a ← checkArgs ord only
  return ⟨elementsIn o a.1, a.2⟩

/-- `only is not None and not only(0)` (sparse.py:1282). -/
def ignoreZeros [Zero V] : Option (V → Res Bool) → Res Bool
  | none => .ok false
  | some f => (f 0).map (fun b => !b)

/-- The element `(i, j)` of the array made by `sparseMatrixToArray` (the entries written into zeros). -/
def arrayAt [Zero V] (c : Sp.Coo V) (i j : Nat) : V :=
  ((c.ents.reverse.find? (fun e => decide (e.row = i ∧ e.col = j))).map Sp.Ent.val).getD 0

/-- `iterateElements(order, only)` of Sparse (sparse.py:1281-1287): the object (its entries may be reordered) and the
iterator. -/
def sparseIterate [Zero V] (c : Sp.Coo V) (ord : OrderArg) (only : OnlyArg V) : Sp.Coo V × Res (It V) :=
  match checkArgs ord only with
  | .error e => (c, .error e)
  | .ok a =>
    match ignoreZeros a.2 with
    | .error e => (c, .error e)
    | .ok true => (c.sortInternal a.1 false, .ok ⟨(c.sortInternal a.1 false).ents.map Sp.Ent.val, a.2⟩)
    | .ok false => (c, .ok ⟨(visit a.1 c.rows c.cols).map (fun p => arrayAt c p.1 p.2), a.2⟩)

/-! ## `countUniqueElements` -/

/-- An element of a numpy array: the identity of the Python object and its value. -/
abbrev Cel := Nat × Val

/-- `val != val`. -/
def isNan (v : Val) : Bool := !pyEq v v

/-- One more of the key equal to `a`, in the order of first occurrence. -/
def bump {A : Type} (same : A → A → Bool) (d : List (A × Nat)) (a : A) : List (A × Nat) :=
  if d.any (fun p => same p.1 a) then d.map (fun p => if same p.1 a then (p.1, p.2 + 1) else p)
  else d ++ [(a, 1)]

/-- `np.unique(array, return_counts=True)`: the distinct values and how often each occurs.  (numpy sorts them; only
the order of the keys of the resulting dictionary depends on that, and it is not modelled.) -/
def npUnique {A : Type} (same : A → A → Bool) (l : List A) : List (A × Nat) := l.foldl (bump same) []

/-- Equality as `np.unique` uses it: numpy before 1.21 does not take nan values together. -/
def uniqEq (collapse : Bool) (a b : Val) : Bool := pyEq a b || (collapse && isNan a && isNan b)

/-- `ret[k] = n`. -/
def dictSet (same : Val → Val → Bool) (d : List (Val × Nat)) (k : Val) (n : Nat) : List (Val × Nat) :=
  if d.any (fun p => same p.1 k) then d.map (fun p => if same p.1 k then (p.1, n) else p)
  else d ++ [(k, n)]

/-- The key `np.nan` gets `n` more (_dataHelpers.py:503-506). -/
def addNan (d : List (Val × Nat)) (n : Nat) : List (Val × Nat) :=
  if d.any (fun p => isNan p.1) then d.map (fun p => if isNan p.1 then (p.1, p.2 + n) else p)
  else d ++ [(.flt false .nan, n)]

/-- The loop of _dataHelpers.py:501-508 for number arrays. -/
def numLoop : List (Val × Nat) → List (Val × Nat) → List (Val × Nat)
  | d, [] => d
  | d, (k, n) :: r => if isNan k then numLoop (addNan d n) r else numLoop (dictSet pyEq d k n) r

/-- `val in mapping` for one key: the same object or an equal one (_dataHelpers.py:488).  (Equal objects have equal
hashes.) -/
def sameKey (k e : Cel) : Bool := decide (k.1 = e.1) || pyEq k.2 e.2

/-- `mapper` over the array (_dataHelpers.py:485-496): the keys of `mapping`, whose numbers are their positions, and
the codes. -/
def mapper : List Cel → List Cel → List Cel × List Nat
  | m, [] => (m, [])
  | m, e :: r =>
    match m.findIdx? (fun k => sameKey k e) with
    | some i => ((mapper m r).1, i :: (mapper m r).2)
    | none => ((mapper (m ++ [e]) r).1, m.length :: (mapper (m ++ [e]) r).2)

/-- The loop of _dataHelpers.py:501-510 for other arrays: the codes are numbers, never nan; `intMap[val]` is the key
with that number, and the keys are distinct. -/
def objLoop (m : List Cel) (u : List (Nat × Nat)) : List (Val × Nat) :=
  u.filterMap (fun p => (m[p.1]?).map (fun k => (k.2, p.2)))

/-- `denseCountUnique` of an array (_dataHelpers.py:479-512).  `np.vectorize` refuses an empty array. -/
def countArray (numeric collapse : Bool) (arr : List Cel) : Res (List (Val × Nat)) :=
  if numeric then .ok (numLoop [] (npUnique (uniqEq collapse) (arr.map Prod.snd)))
  else if arr.isEmpty then .error .ValueError
  else .ok (objLoop (mapper [] arr).1 (npUnique (fun a b => decide (a = b)) (mapper [] arr).2))

/-- `points if points is not None else slice(None)` (_dataHelpers.py:457-458). -/
def wanted : Option AxKey → AxKey
  | none => Obj.fullSlice
  | some k => k

/-- `countUniqueElements(points, features)` of List, Matrix and DataFrame (_dataHelpers.py:454-474).  A number (two
single identifiers) has no `copy` with that argument. -/
def countUnique (numeric collapse : Bool) (o : Obj Cel) (points features : Option AxKey) : Res (List (Val × Nat)) :=
  if points.isNone && features.isNone then countArray numeric collapse o.data.flatten
  else
    match o.getitem (wanted points) (wanted features) with
    | .error e => .error e
    | .ok (.elem _) => .error .AttributeError
    | .ok (.obj r) => countArray numeric collapse r.data.flatten

/-- `numZeros > 0` (sparse.py:251-254). -/
def setZeros (d : List (Val × Nat)) (total stored : Nat) : List (Val × Nat) :=
  if stored < total then dictSet pyEq d (.int false 0) (total - stored) else d

/-- `countUniqueElements(points, features)` of Sparse (sparse.py:241-255); `store` gives the entries an object stores. -/
def sparseCountUnique (numeric collapse : Bool) (store : Obj Cel → List Cel) (o : Obj Cel) (points features : Option AxKey) :
    Res (List (Val × Nat)) :=
  match o.getitem (wanted points) (wanted features) with
  | .error e => .error e
  | .ok (.elem _) => .error .AttributeError
  | .ok (.obj r) => (countArray numeric collapse (store r)).map (fun d => setZeros d (r.pts.len * r.fts.len) (store r).length)

end Nimble.Iter
