import Verif.Model.CalcElements
import Verif.Model.Binary

/-!
# Arithmetic with a number, unary and logical operators

`Base._genericBinaryOperations` with a scalar (base.py:5391-5446), its validation (base.py:5212-5225, 5244-5290) and
the numeric conversion (base.py:5371-5389, list.py:642-652, matrix.py:490-492, dataframe.py:566-568,
sparse.py:1276-1279); `__pos__`, `__neg__`, `__abs__` (base.py:5172-5210); `__and__`, `__or__`, `__xor__`, `__invert__`
(base.py:5462-5513).  An element stands for the number it is: whether numpy stores it as an integer or as a float, and
rounding, is left to the arithmetic `A`, a parameter.  Dates, object names and paths, logging, views, DataFrames with
boolean features next to others, and the Sparse shortcuts for zero-preserving operations (C18) are not modelled.
-/

namespace Nimble.Scalar
open Nimble.Match Nimble.LearnFill Nimble.Obj Nimble.Elements

/-- The operators. -/
inductive Op where
  | add | sub | mul | truediv | floordiv | mod | pow
  deriving DecidableEq

/-- The floating point errors numpy is told to raise (base.py:5430). -/
inductive FpFlag where
  | divide | invalid
  deriving DecidableEq

/-- The arithmetic of numpy. -/
abbrev Arith := Op → Flt → Flt → Except FpFlag Flt

/-- How the object is stored; `array` is a Matrix or a Sparse. -/
inductive Store where
  | list | array | frame
  deriving DecidableEq

/-- Which calculation of `calculateOnElements`. -/
def Store.kind : Store → Kind
  | .frame => .frame
  | _ => .array

/-- `float(v)`; numpy takes `None` for nan. -/
def toNumber (P : Conv) (st : Store) : Val → Option Flt
  | .none => if st = .list then none else some .nan
  | .str s => P.float s
  | v => v.num

/-- `type(val) in usableTypes` (list.py:643-648); only floats for powers (base.py:5393-5395). -/
def usableType (pow : Bool) : Val → Bool
  | .flt false _ => true
  | .int false _ => !pow
  | .bool false _ => !pow
  | _ => false

/-- A number in an array of a usable type. -/
def usableDtype (pow : Bool) : Val → Bool
  | .flt _ _ => true
  | .int _ _ => !pow
  | .bool _ _ => !pow
  | _ => false

/-- `float(val)`. -/
def floatOf (P : Conv) (st : Store) (v : Val) : Option Val := (toNumber P st v).map (.flt (decide (st ≠ .list)))

/-- `convertType` (list.py:646-649). -/
def convertType (P : Conv) (pow : Bool) (v : Val) : Option Val := if usableType pow v then some v else floatOf P .list v

/-- `_convertToNumericTypes_implementation`: `none` if an element cannot be converted. -/
def convertRows (P : Conv) (st : Store) (pow : Bool) (rows : List (List Val)) : Option (List (List Val)) :=
  if st = .list then rows.mapM (fun r => r.mapM (convertType P pow))
  else if rows.all (fun r => r.all (usableDtype pow)) then some rows
  else rows.mapM (fun r => r.mapM (floatOf P st))

/-- `_convertToNumericTypes`, and `_numericValidation` if that fails (base.py:5402-5405, 5212-5225): what cannot be
converted does not look numeric either. -/
def convertObj (P : Conv) (st : Store) (op : Op) (o : Obj Val) : Res (Obj Val) :=
  match convertRows P st (decide (op = .pow)) o.data with
  | some rows => .ok { o with data := rows }
  | none => .error .ImproperObjectAction

/-- `looksNumeric(other)` (_dataHelpers.py:127-137). -/
def looksNumeric : Val → Bool
  | .none => false
  | .str _ => false
  | _ => true

/-- `'div' in opName or 'mod' in opName`. -/
def Op.divides : Op → Bool
  | .truediv => true
  | .floordiv => true
  | .mod => true
  | _ => false

/-- `_validateDivMod` finds a zero (base.py:5244-5261). -/
def zeroDivisor (refl : Bool) (c : Val) (o : Obj Val) : Bool :=
  if refl then o.data.any (fun r => r.any (fun v => pyEq v zeroVal)) else pyEq c zeroVal

/-- `_genericBinary_validation` for a scalar (base.py:5280-5291). -/
def validate (op : Op) (refl : Bool) (c : Val) (o : Obj Val) : Res Unit :=
  if looksNumeric c = false then .error .InvalidArgumentType
  else if op.divides = true ∧ zeroDivisor refl c o = true then .error .ZeroDivisionError
  else .ok ()

def isBool : Val → Bool
  | .bool _ _ => true
  | _ => false

/-- An array of booleans and a boolean: numpy calculates with booleans. -/
def allBool (c : Val) (rows : List (List Val)) : Bool := isBool c && rows.all (fun r => r.all isBool)

/-- numpy's `+` of booleans is `or`. -/
def boolArith (A : Arith) : Arith
  | .add, x, y => .ok (if x.eq (.fin 0) && y.eq (.fin 0) then .fin 0 else .fin 1)
  | op, x, y => A op x y

/-- The two arguments; reflected operators have the element on the right. -/
def applyOp (A : Arith) (op : Op) (refl : Bool) (c v : Val) : Except FpFlag Flt :=
  match v.num, c.num with
  | some x, some y => if refl then A op y x else A op x y
  | _, _ => .ok .nan

/-- Does any element raise the flag? -/
def raises (fl : FpFlag) (l : List (List (Except FpFlag Flt))) : Bool :=
  l.any (fun r => r.any (fun e => match e with | .error g => decide (g = fl) | .ok _ => false))

/-- `_diagnoseFailureAndRaiseException` (base.py:5263-5278, 5432-5434); data and scalar are numeric. -/
def diagnose (op : Op) : FpFlag → Err
  | .divide => if op = .pow then .ZeroDivisionError else .FloatingPointError
  | .invalid => if op = .pow then .ImproperObjectAction else .FloatingPointError

/-- An element of the array. -/
def shown : Except FpFlag Flt → Val
  | .ok x => .flt true x
  | .error _ => .flt true .nan

/-- The numbers of the array. -/
def values (l : List (List (Except FpFlag Flt))) : List (List Val) := l.map (fun r => r.map shown)

/-- All elements. -/
def applyAll (A : Arith) (op : Op) (refl : Bool) (c : Val) (rows : List (List Val)) : List (List (Except FpFlag Flt)) :=
  rows.map (fun r => r.map (applyOp (if allBool c rows then boolArith A else A) op refl c))

/-- `_binaryOperations_implementation` under `np.errstate(divide='raise', invalid='raise')` (base.py:5424-5434,
5449-5460).  numpy does not subtract booleans. -/
def compute (A : Arith) (op : Op) (refl : Bool) (c : Val) (rows : List (List Val)) : Res (List (List Val)) :=
  if op = .sub ∧ allBool c rows = true then .error .TypeError
  else if raises .divide (applyAll A op refl c rows) then .error (diagnose op .divide)
  else if raises .invalid (applyAll A op refl c rows) then .error (diagnose op .invalid)
  else .ok (values (applyAll A op refl c rows))

/-- What follows the conversion (base.py:5412-5446): the names are those of the object. -/
def finish (A : Arith) (op : Op) (refl : Bool) (c : Val) (o : Obj Val) : Res (Obj Val) := do
  validate op refl c o
  let rows ← compute A op refl c o.data
  let p ← AxisSt.setNames ⟨o.pts.len, none⟩ (asAssign o.pts.getNamesNoGen)
  let f ← AxisSt.setNames ⟨o.fts.len, none⟩ (asAssign o.fts.getNamesNoGen)
  return ⟨rows, p, f⟩

/-- `obj op c` and `c op obj` (`refl`) (base.py:5391-5446). -/
def scalarOp (A : Arith) (P : Conv) (st : Store) (op : Op) (refl : Bool) (c : Val) (o : Obj Val) : Res (Obj Val) := do
  let o1 ← convertObj P st op o
  finish A op refl c o1

/-- `obj op= c`: the object afterwards and the outcome.  The object itself is converted (base.py:5397-5405). -/
def scalarInplace (A : Arith) (P : Conv) (st : Store) (op : Op) (c : Val) (o : Obj Val) : Obj Val × Res Unit :=
  match convertObj P st op o with
  | .error e => (o, .error e)
  | .ok o1 =>
    match finish A op false c o1 with
    | .error e => (o1, .error e)
    | .ok r => (r, .ok ())

/-- `+obj` (base.py:5172-5179): a copy. -/
def pos (o : Obj Val) : Res (Obj Val) := .ok o

/-- `-obj` (base.py:5181-5189): `ret = self.copy(); ret *= -1`. -/
def neg (A : Arith) (P : Conv) (st : Store) (o : Obj Val) : Res (Obj Val) :=
  match scalarInplace A P st .mul (.int false (-1)) o with
  | (_, .error e) => .error e
  | (r, .ok ()) => .ok r

/-- `abs(v)`. -/
def absVal : Val → Res (Option Val)
  | .bool np b => .ok (some (.bool np b))
  | .int np i => .ok (some (.int np (if i < 0 then -i else i)))
  | .flt np (.fin q) => .ok (some (.flt np (.fin (if q < 0 then -q else q))))
  | .flt np .nan => .ok (some (.flt np .nan))
  | .flt np _ => .ok (some (.flt np .inf))
  | _ => .error .TypeError

/-- The array of the numbers; any array if there is something else. -/
def asArray (st : Store) (o : Obj Val) : Obj Val :=
  if st ≠ .frame ∧ o.data.all (fun r => r.all looksNumeric) = true then
    { o with data := o.data.map (fun r => r.map toFloat) }
  else o

/-- `abs(obj)` (base.py:5191-5210).  The last `else` sets the names of the points. -/
def abs (P : Conv) (st : Store) (o : Obj Val) : Res (Obj Val) := do
  let r ← calculateOnElements P st.kind (.one absVal) false false .all .all (asArray st o)
  let p ← r.pts.setNames (asAssign o.pts.getNamesNoGen)
  match o.fts.getNamesNoGen with
  | some l => do
    let f ← r.fts.setNames (.list l)
    return ⟨r.data, p, f⟩
  | none => do
    let p2 ← p.setNames .none
    return ⟨r.data, p2, r.fts⟩

/-! ## Logical operators -/

inductive LOp where
  | and | or | xor
  deriving DecidableEq

def LOp.eval : LOp → Bool → Bool → Bool
  | .and, a, b => a && b
  | .or, a, b => a || b
  | .xor, a, b => a != b

/-- The operator on elements. -/
def LOp.val (op : LOp) (a b : Val) : Val := .bool true (op.eval (truth a) (truth b))

/-- `_isBooleanData` (base.py:5495-5496, matrix.py:497-498, sparse.py:1289-1290). -/
def isBooleanData (st : Store) (o : Obj Val) : Bool := decide (st = .array) && o.data.all (fun r => r.all isBool)

/-- `match.allValues([True, False, 0, 1])`. -/
def logicalValues : Arg := .list [.bool false true, .bool false false, .int false 0, .int false 1]

/-- `self.matchingElements(f)`, then the names again (base.py:5477-5480, 5506-5510). -/
def matchNamed (P : Conv) (st : Store) (f : Val → Bool) (o src : Obj Val) : Res (Obj Val) := do
  let r ← matchingElements P st.kind (.one (fun v => .ok (.bool false (f v)))) .all .all o
  let p ← r.pts.setNames (asAssign src.pts.getNamesNoGen)
  let q ← r.fts.setNames (asAssign src.fts.getNamesNoGen)
  return ⟨r.data, p, q⟩

/-- `if not validValues(self): raise` (base.py:5500-5504). -/
def logicalCheck (ok : Bool) : Res Unit := if ok then .ok () else .error .ImproperObjectAction

/-- `_logicalValidationAndConversion` (base.py:5498-5513). -/
def logicalConv (P : Conv) (st : Store) (o : Obj Val) : Res (Obj Val) :=
  if isBooleanData st o then .ok o
  else do
    let ok ← allValues logicalValues (.obj o)
    logicalCheck ok
    matchNamed P st truth o o

/-- `_genericBinary_sizeValidation` (base.py:5227-5242). -/
def sizeValidation (o other : Obj Val) : Res Unit :=
  if o.pts.len ≠ other.pts.len then .error .InvalidArgumentValue
  else if o.fts.len ≠ other.fts.len then .error .InvalidArgumentValue
  else if o.pts.len = 0 ∨ o.fts.len = 0 then .error .ImproperObjectAction
  else .ok ()

/-- `obj & other`, `obj | other`, `obj ^ other` (base.py:5483-5493). -/
def logical (P : Conv) (st st' : Store) (op : LOp) (o other : Obj Val) : Res (Obj Val) := do
  sizeValidation o other
  let l ← logicalConv P st o
  let r ← logicalConv P st' other
  l.binaryOp op.val false r

/-- `~obj` (base.py:5474-5481). -/
def invert (P : Conv) (st : Store) (o : Obj Val) : Res (Obj Val) := do
  let b ← logicalConv P st o
  matchNamed P st (fun v => !truth v) b o

end Nimble.Scalar
