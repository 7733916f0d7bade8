import Verif.Model.Sparse
import Verif.Model.ScalarOps

/-!
# Arithmetic of Sparse objects (`nimble/core/data/sparse.py:1020-1223`)

The shortcuts a Sparse object takes: the operations with a number that are applied to the stored values only, and
the operations with another Sparse object.  The data is numeric (the conversion and the names are those of
`Model/ScalarOps` and `Model/Binary`).  The loops of numpy work under `np.errstate(divide='raise', invalid='raise')`
(base.py:5430) and are the parameter `A`; the compiled loops of scipy do not look at floating point errors and are the
parameter `Q`.  Dense right hand sides, which are converted to Sparse or multiplied by scipy, views, dates, in-place
operators (which compute the same result and then take it over, base.py:5424-5439) and matrix multiplication are not
modelled.
-/

namespace Nimble.SpArith
open Nimble.Match Nimble.Sp Nimble.Scalar

instance : Zero Flt := ⟨.fin 0⟩

/-- The arithmetic at hand: numpy's operators, those of scipy's compiled loops, and `np.floor`. -/
structure Env where
  A : Arith
  Q : Op → Flt → Flt → Flt
  floor : Flt → Flt

def isError (fl : FpFlag) : Except FpFlag Flt → Bool
  | .error g => decide (g = fl)
  | .ok _ => false

/-- The floating point error numpy raises after an array has been calculated. -/
def firstFlag (l : List (Except FpFlag Flt)) : Option FpFlag :=
  if l.any (isError .divide) then some .divide
  else if l.any (isError .invalid) then some .invalid
  else none

/-- The calculated number. -/
def val : Except FpFlag Flt → Flt
  | .ok x => x
  | .error _ => .nan

/-- `_diagnoseFailureAndRaiseException` (base.py:5263-5278): nothing was wrong with the types. -/
def orRaise {B : Type} (op : Op) (fl : Option FpFlag) (b : B) : Res B :=
  match fl with
  | some fl => .error (diagnose op fl)
  | none => .ok b

/-- `_containsZero_implementation` (sparse.py:1020-1025): fewer values are stored than there are elements. -/
def containsZero (o : Coo Flt) : Bool := decide (o.ents.length < o.rows * o.cols)

/-- An entry after `eliminate_zeros`. -/
def keepEnt (e : Ent Flt) (v : Flt) : Option (Ent Flt) := if v = 0 then none else some ⟨e.row, e.col, v⟩

/-- `_scalarZeroPreservingBinary_implementation` (sparse.py:1205-1223): the operation on the array of stored values,
then `eliminate_zeros`. -/
def onStored (op : Op) (g : Flt → Except FpFlag Flt) (o : Coo Flt) : Res (Coo Flt) :=
  orRaise op (firstFlag (o.ents.map (fun e => g e.val)))
    ⟨o.rows, o.cols, o.ents.filterMap (fun e => keepEnt e (val (g e.val))), none, none⟩

/-- The table with the elements of a coordinate matrix, `sparseMatrixToArray` (_dataHelpers.py; `copy('numpyarray')`,
sparse.py:371-375). -/
def table (o : Coo Flt) : List (List Flt) :=
  (List.range o.rows).map (fun i => (List.range o.cols).map (fun j =>
    ((o.ents.find? (fun e => decide (e.row = i ∧ e.col = j))).map Ent.val).getD 0))

/-- `_defaultBinaryOperations_implementation` (base.py:5449-5460) with a number. -/
def onAll (op : Op) (g : Flt → Except FpFlag Flt) (o : Coo Flt) : Res (Coo Flt) :=
  orRaise op (firstFlag ((table o).flatten.map g))
    (Coo.ofDense o.cols ((table o).map (fun r => r.map (fun x => val (g x)))))

/-- `_scalarBinary_implementation`, nothing to do (sparse.py:1073-1076): `oneSafe`. -/
def oneSafe (op : Op) (refl : Bool) (c : Flt) : Bool :=
  (decide (op = .mul) || (!refl && (decide (op = .truediv) || decide (op = .pow)))) && c.eq (.fin 1)

/-- `zeroPreserved` (sparse.py:1077-1080). -/
def zeroPreserved (op : Op) (refl : Bool) (c : Flt) : Bool :=
  decide (op = .mul) || decide (op = .truediv) || decide (op = .floordiv) || decide (op = .mod) ||
    (decide (op = .pow) && !refl && c.pos)

/-- The operation with the number on one side. -/
def side (A : Arith) (op : Op) (refl : Bool) (c x : Flt) : Except FpFlag Flt := if refl then A op c x else A op x c

/-- `_scalarBinary_implementation` (sparse.py:1072-1087). -/
def scalarBinary (A : Arith) (op : Op) (refl : Bool) (c : Flt) (o : Coo Flt) : Res (Coo Flt) :=
  if oneSafe op refl c then .ok o.reset
  else if zeroPreserved op refl c then onStored op (side A op refl c) o
  else onAll op (side A op refl c) o

/-- `_validateDivMod` (base.py:5244-5261). -/
def divides0 (op : Op) (refl : Bool) (c : Flt) (o : Coo Flt) : Bool :=
  op.divides && (if refl then containsZero o else c.eq (.fin 0))

/-- `sparse op c` and `c op sparse` (`refl`) for a number `c` (base.py:5391-5446, sparse.py:1028-1087). -/
def scalarOp (A : Arith) (op : Op) (refl : Bool) (c : Flt) (o : Coo Flt) : Res (Coo Flt) :=
  if divides0 op refl c o then .error .ZeroDivisionError else scalarBinary A op refl c o

/-- Is a value stored at these coordinates? -/
def storedAt (o : Coo Flt) (i j : Nat) : Bool := o.ents.any (fun e => decide (e.row = i ∧ e.col = j))

/-- The stored value, or 0. -/
def valueAt (o : Coo Flt) (i j : Nat) : Flt :=
  ((o.ents.find? (fun e => decide (e.row = i ∧ e.col = j))).map Ent.val).getD 0

/-- The entry of a result of scipy at some coordinates, if it is not zero. -/
def scipyEnt (q : Flt → Flt → Flt) (a b : Coo Flt) (i j : Nat) : Option (Ent Flt) :=
  if storedAt a i j || storedAt b i j then keepEnt ⟨i, j, 0⟩ (q (valueAt a i j) (valueAt b i j)) else none

/-- scipy's operation of two sparse matrices: calculated where one of the two stores a value, zeros are not stored
(`coo_matrix.__add__`, `__sub__`, `multiply`, `__truediv__`; sparse.py:1040-1048, 1126-1132). -/
def scipyOp (q : Flt → Flt → Flt) (a b : Coo Flt) : Coo Flt :=
  ⟨a.rows, a.cols, (List.range a.rows).flatMap (fun i => (List.range a.cols).filterMap (scipyEnt q a b i)), none, none⟩

/-- `_genericFloordiv_implementation` (sparse.py:1160-1175): the quotient rounded down. -/
def floordiv (E : Env) (a b : Coo Flt) : Coo Flt :=
  { scipyOp (E.Q .truediv) a b with
    ents := (scipyOp (E.Q .truediv) a b).ents.filterMap (fun e => keepEnt e (E.floor e.val)) }

/-- numpy's broadcasting of two arrays of one dimension. -/
def broadcast (x y : List Flt) : Res (List (Flt × Flt)) :=
  if x.length = y.length then .ok (x.zip y)
  else if x.length = 1 then .ok (y.map (fun b => (x.headD 0, b)))
  else if y.length = 1 then .ok (x.map (fun a => (a, y.headD 0)))
  else .error .ValueError

/-- `coo_matrix((ret, (row, col)))`: the three arrays need the same length. -/
def rebuild (a : Coo Flt) (ret : List (Except FpFlag Flt)) : Res (Coo Flt) :=
  if ret.length = a.ents.length then
    .ok ⟨a.rows, a.cols, (a.ents.zip ret).filterMap (fun p => keepEnt p.1 (val p.2)), none, none⟩
  else .error .ValueError

/-- `_genericMod_implementation` (sparse.py:1177-1203): `np.mod` of the two arrays of stored values, sorted alike. -/
def mod (E : Env) (a b : Coo Flt) : Res (Coo Flt) := do
  let a1 := a.sortInternal (a.sorted.getD .point) false
  let b1 := b.sortInternal (a.sorted.getD .point) false
  let args ← broadcast (a1.ents.map Ent.val) (b1.ents.map Ent.val)
  let ret := args.map (fun p => E.A .mod p.1 p.2)
  let ret ← orRaise .mod (firstFlag ret) ret
  rebuild a1 ret

/-- `_genericPow_implementation` (sparse.py:1134-1158): every element to the power of the other object's, by
`calculateOnElements`. -/
def pow (E : Env) (a b : Coo Flt) : Res (Coo Flt) :=
  orRaise .pow
    (firstFlag ((List.range a.rows).flatMap (fun i => (List.range a.cols).map (fun j =>
      E.A .pow (valueAt a i j) (valueAt b i j)))))
    (Coo.ofDense a.cols ((List.range a.rows).map (fun i => (List.range a.cols).map (fun j =>
      val (E.A .pow (valueAt a i j) (valueAt b i j))))))

/-- `_genericBinary_validation` for two objects (base.py:5227-5261, 5280-5291). -/
def validateObjs (op : Op) (a b : Coo Flt) : Res Unit :=
  if a.rows ≠ b.rows then .error .InvalidArgumentValue
  else if a.cols ≠ b.cols then .error .InvalidArgumentValue
  else if a.rows = 0 ∨ a.cols = 0 then .error .ImproperObjectAction
  else if op.divides && containsZero b then .error .ZeroDivisionError
  else .ok ()

/-- `_binaryOperations_implementation` with a Sparse object (sparse.py:1028-1069). -/
def compute (E : Env) (op : Op) (a b : Coo Flt) : Res (Coo Flt) :=
  match op with
  | .floordiv => .ok (floordiv E a b)
  | .mod => mod E a b
  | .pow => pow E a b
  | op => .ok (scipyOp (E.Q op) a b)

/-- `a op b` for two Sparse objects. -/
def objOp (E : Env) (op : Op) (a b : Coo Flt) : Res (Coo Flt) := do
  validateObjs op a b
  compute E op a b

end Nimble.SpArith
