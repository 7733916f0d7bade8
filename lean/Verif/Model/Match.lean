import Verif.Model.Obj
import Mathlib.Data.Rat.Defs

/-!
# The functions of `nimble.match` (`nimble/match/match.py`)

Values are Python's `None`, booleans, integers, floats and strings, and numpy's booleans, integers
and floats.  Complex numbers and other objects are not modelled.
-/

namespace Nimble.Match

/-- A float: a finite number (its exact value), an infinity or nan. -/
inductive Flt where
  | fin (q : Rat)
  | inf
  | ninf
  | nan
  deriving DecidableEq

/-- A value; `np` tells numpy scalars from Python's own. -/
inductive Val where
  | none
  | bool (np : Bool) (b : Bool)
  | int (np : Bool) (i : Int)
  | flt (np : Bool) (f : Flt)
  | str (s : String)
  deriving DecidableEq

/-- `==` on floats: nan equals nothing. -/
def Flt.eq : Flt → Flt → Bool
  | .fin a, .fin b => decide (a = b)
  | .inf, .inf => true
  | .ninf, .ninf => true
  | _, _ => false

/-- The number a value is, if it is one; booleans are 0 and 1. -/
def Val.num : Val → Option Flt
  | .bool _ b => some (.fin (if b then 1 else 0))
  | .int _ i => some (.fin i)
  | .flt _ f => some f
  | _ => Option.none

/-- `==` on two numbers, `False` if one of the values is none. -/
def numEq : Option Flt → Option Flt → Bool
  | some a, some b => a.eq b
  | _, _ => false

/-- Python's `a == b`. -/
def pyEq : Val → Val → Bool
  | .none, .none => true
  | .str a, .str b => decide (a = b)
  | a, b => numEq a.num b.num

/-- `0 < f` for floats. -/
def Flt.pos : Flt → Bool
  | .fin q => decide (0 < q)
  | .inf => true
  | _ => false

/-- `f < 0` for floats. -/
def Flt.neg : Flt → Bool
  | .fin q => decide (q < 0)
  | .ninf => true
  | _ => false

/-- A comparison with 0: `None` and strings raise `TypeError`. -/
def cmp0 (c : Flt → Bool) (v : Val) : Res Bool :=
  match v.num with
  | some f => .ok (c f)
  | Option.none => .error .TypeError

/-- `except TypeError: return False`. -/
def catchType : Res Bool → Bool
  | .ok b => b
  | .error _ => false

/-- `missing` (match.py:54). -/
def missing (v : Val) : Bool := decide (v = .none) || !pyEq v v

/-- `nonMissing` (match.py:86). -/
def nonMissing (v : Val) : Bool := !missing v

/-- `boolean` (match.py:354). -/
def boolean : Val → Bool
  | .bool _ _ => true
  | _ => false

/-- `isinstance(value, (int, float, complex, np.number))`: Python's booleans are ints, numpy's are
not numbers. -/
def isNumberType : Val → Bool
  | .bool np _ => !np
  | .int _ _ => true
  | .flt _ _ => true
  | _ => false

/-- `numeric` (match.py:120-121). -/
def numeric (v : Val) : Bool := isNumberType v && !boolean v

/-- `nonNumeric` (match.py:156). -/
def nonNumeric (v : Val) : Bool := !numeric v

/-- `zero` (match.py:188). -/
def zero (v : Val) : Bool := pyEq v (.int false 0)

/-- `nonZero` (match.py:220). -/
def nonZero (v : Val) : Bool := !pyEq v (.int false 0)

/-- `positive` (match.py:252-255). -/
def positive (v : Val) : Bool := catchType (cmp0 Flt.pos v)

/-- `negative` (match.py:287-290). -/
def negative (v : Val) : Bool := catchType (cmp0 Flt.neg v)

/-- `np.isinf` of a number. -/
def Flt.isInf : Flt → Bool
  | .inf => true
  | .ninf => true
  | _ => false

/-- `infinity` (match.py:320-323). -/
def infinity (v : Val) : Bool := catchType (cmp0 Flt.isInf v)

/-- `integer` (match.py:383): Python's booleans are ints. -/
def integer : Val → Bool
  | .bool np _ => !np
  | .int _ _ => true
  | _ => false

/-- `floating` (match.py:412). -/
def floating : Val → Bool
  | .flt _ _ => true
  | _ => false

/-- `true` (match.py:444): `value is True` holds for Python's own `True` only. -/
def true' (v : Val) : Bool := boolean v && decide (v = .bool false true)

/-- `false` (match.py:476). -/
def false' (v : Val) : Bool := boolean v && decide (v = .bool false false)

/-! ## Converting a match argument -/

/-- The `match` argument: a function, a list-like container or a constant. -/
inductive Arg where
  | func (m : Val → Res Bool)
  | list (l : List Val)
  | const (v : Val)

/-- `x in l`. -/
def isIn (x : Val) (l : List Val) : Bool := l.any (fun y => pyEq x y)

/-- The matcher for a container (match.py:1677-1682). -/
def listMatch (l : List Val) (x : Val) : Bool :=
  if !l.all (fun v => pyEq v v) then !pyEq x x || isIn x l else isIn x l

/-- The matcher for a constant (match.py:1685-1691). -/
def constMatch (c x : Val) : Bool :=
  if c = .none then decide (x = .none)
  else if !pyEq c c then !pyEq x x
  else pyEq x c

/-- `_convertMatchToFunction` (match.py:1673-1692). -/
def convert : Arg → Val → Res Bool
  | .func m => m
  | .list l => fun x => .ok (listMatch l x)
  | .const c => fun x => .ok (constMatch c x)

/-! An iterator (a generator, `map`, `zip`, an open file …) also passes the `hasattr` checks of
match.py:1675; what is left of it is state. -/

/-- `all(val == val for val in it)` (match.py:1679): the answer and what is left. -/
def iterAll : List Val → Bool × List Val
  | [] => (true, [])
  | v :: it => if pyEq v v then iterAll it else (false, it)

/-- `x in it`: the answer and what is left. -/
def iterIn (x : Val) : List Val → Bool × List Val
  | [] => (false, [])
  | y :: it => if pyEq x y then (true, it) else iterIn x it

/-- One call of the matcher made of an iterator; `nan` tells whether the check of match.py:1679 met
a nan. -/
def iterCall (nan : Bool) (it : List Val) (x : Val) : Bool × List Val :=
  if nan && !pyEq x x then (true, it) else iterIn x it

/-- The answers of the matcher to successive calls. -/
def iterCalls (nan : Bool) : List Val → List Val → List Bool
  | _, [] => []
  | it, x :: xs => (iterCall nan it x).1 :: iterCalls nan (iterCall nan it x).2 xs

/-- `_convertMatchToFunction` of an iterator and its successive answers. -/
def oneShot (it : List Val) (xs : List Val) : List Bool :=
  iterCalls (!(iterAll it).1) (iterAll it).2 xs

/-! ## Any and all -/

variable {V : Type}

/-- The data given: a Python iterable or a nimble object. -/
inductive Data (V : Type) where
  | seq (l : List V)
  | obj (o : Obj V)

/-- Python's `any` and `all`. -/
inductive Quant where
  | any
  | all
  deriving DecidableEq

def Quant.eval : Quant → List Bool → Bool
  | .any, l => l.any id
  | .all, l => l.all id

/-- `[match(val) for val in data]`. -/
def evalAll (m : V → Res Bool) : List V → Res (List Bool)
  | [] => .ok []
  | v :: vs => do
    let b ← m v
    let bs ← evalAll m vs
    return b :: bs

/-- Subclasses of `TypeError` (nimble/exceptions.py:38-85). -/
def isTypeError : Err → Bool
  | .TypeError => true
  | .InvalidArgumentType => true
  | .InvalidArgumentTypeCombination => true
  | .ImproperObjectAction => true
  | _ => false

/-- `iter(data)` of an object (base.py:453-459, `ElementIterator1D` _dataHelpers.py:706-726). -/
def iterObj (o : Obj V) : Res (List V) :=
  if o.pts.len ≤ 1 ∨ o.fts.len ≤ 1 then .ok o.data.flatten else .error .ImproperObjectAction

/-- `iter(data)`. -/
def iterData : Data V → Res (List V)
  | .seq l => .ok l
  | .obj o => iterObj o

/-- What ends the loop over the features early: a match for `any`, a feature that does not match for
`all`. -/
def Quant.stop : Quant → Bool → Bool
  | .any, b => b
  | .all, b => !b

/-- The result of the loop when it ends early. -/
def Quant.early : Quant → Bool
  | .any => true
  | .all => false

/-- The loops over the features (match.py:1621-1624, 1626-1629); `data[:, i]` has a single feature
and is iterable. -/
def scan (q : Quant) (m : V → Res Bool) (o : Obj V) : List Nat → Res Bool
  | [] => .ok (!q.early)
  | i :: is => do
    let bs ← evalAll m (o.vector .feature i)
    if q.stop (q.eval bs) then .ok q.early else scan q m o is

/-- The `except TypeError` branch: other iterables have no `features`. -/
def fallback (q : Quant) (m : V → Res Bool) : Data V → Res Bool
  | .seq _ => .error .AttributeError
  | .obj o => scan q m o (List.range o.fts.len)

/-- The `try` body (match.py:1616). -/
def direct (q : Quant) (m : V → Res Bool) (d : Data V) : Res Bool := do
  let l ← iterData d
  let bs ← evalAll m l
  return q.eval bs

/-- `except TypeError`. -/
def recover (r fb : Res Bool) : Res Bool :=
  match r with
  | .ok b => .ok b
  | .error e => if isTypeError e then fb else .error e

/-- `anyAllValuesBackend` (match.py:1605-1629). -/
def anyAll (q : Quant) (m : V → Res Bool) (d : Data V) : Res Bool :=
  recover (direct q m d) (fallback q m d)

/-- `anyValues(match)(data)` (match.py:522-525). -/
def anyValues (a : Arg) (d : Data Val) : Res Bool := anyAll .any (convert a) d

/-- `allValues(match)(data)` (match.py:571-574). -/
def allValues (a : Arg) (d : Data Val) : Res Bool := anyAll .all (convert a) d

/-- `anyMissing`, `anyZero`, … (match.py:576-1603) for the predicate of that name. -/
def anyOf (p : Val → Bool) (d : Data Val) : Res Bool := anyAll .any (fun v => .ok (p v)) d

/-- `allMissing`, `allZero`, … -/
def allOf (p : Val → Bool) (d : Data Val) : Res Bool := anyAll .all (fun v => .ok (p v)) d

end Nimble.Match
