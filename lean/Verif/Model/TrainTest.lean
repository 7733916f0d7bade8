import Verif.Model.Group
import Verif.Model.Binary

/-!
# `trainAndTestSets` (base.py:1651-1725)
-/

namespace Nimble
variable {V : Type}

/-- Python's `round(x)`: to the nearest integer, halves to the even one. -/
def pyRound (q : Rat) : Int :=
  if q - (q.floor : Rat) < 1 / 2 then q.floor
  else if 1 / 2 < q - (q.floor : Rat) then q.floor + 1
  else if q.floor % 2 = 0 then q.floor
  else q.floor + 1

/-- The `labels` argument: absent, another object, or identifiers of features. -/
inductive Labels (V : Type) where
  | none
  | obj (l : Obj V)
  | ids (by' : GroupBy)

/-- The returned sets; without labels there are no label sets. -/
structure SplitSets (V : Type) where
  trainX : Obj V
  testX : Obj V
  labels : Option (Obj V × Obj V)

/-- `[name for name in labelNames if self.features.hasName(name)]` (base.py:1693-1694); a default
name (`None`) is no valid identifier. -/
def namesInBoth (a : AxisSt) : List (Option String) → Res (List String)
  | [] => .ok []
  | n :: ns => do
    let _ ← if n.isNone then (Obj.getIndexName a none).map (fun _ => ()) else .ok ()
    let b ← a.hasName (n.getD "")
    let rest ← namesInBoth a ns
    return if b then (n.getD "") :: rest else rest

namespace Obj

/-- `obj.points.copy(idx)` for a list of indices. -/
def copyPoints (samp : List Nat → Nat → List Nat) (o : Obj V) (idx : List Nat) : Res (Obj V) :=
  (o.copy samp .point { target := some (.list (idx.map (fun (i : Nat) => .int i))) }).2

/-- `obj.features.delete(names)` for a non-empty list of names. -/
def deleteNamed (samp : List Nat → Nat → List Nat) (o : Obj V) (names : List String) :
    Res (Obj V) :=
  let r := o.delete samp .feature { target := some (.list (names.map .str)) }
  r.2.map (fun _ => r.1)

/-- Labels given as an object (base.py:1675-1697). -/
def splitObj (samp : List Nat → Nat → List Nat) (o l : Obj V) (trainX testX : Obj V)
    (trainI testI : List Nat) : Res (SplitSets V) := do
  if l.pts.len ≠ o.pts.len then .error .InvalidArgumentValue
  else if !namesEqualCheck o.pts l.pts then .error .InvalidArgumentValue
  else
    let trainY ← l.copyPoints samp trainI
    let testY ← l.copyPoints samp testI
    if o.fts.namesCreated && l.fts.namesCreated then
      let both ← namesInBoth o.fts l.fts.getNames
      if both.isEmpty then return ⟨trainX, testX, some (trainY, testY)⟩
      else
        let a ← trainX.deleteNamed samp both
        let b ← testX.deleteNamed samp both
        return ⟨a, b, some (trainY, testY)⟩
    else return ⟨trainX, testX, some (trainY, testY)⟩

/-- `toExtract` (base.py:1704-1707): nothing when the test set is empty. -/
def labelTarget (by' : GroupBy) (testSize : Nat) : Target V :=
  if testSize = 0 then .list [] else by'.target

/-- `x.features.extract(..)`: the rest and what was extracted. -/
def extractLabels (samp : List Nat → Nat → List Nat) (o : Obj V) (t : Target V) :
    Res (Obj V × Obj V) :=
  let r := o.extract samp .feature { target := some t }
  r.2.map (fun y => (r.1, y))

/-- Labels given as identifiers (base.py:1698-1710). -/
def splitIds (samp : List Nat → Nat → List Nat) (by' : GroupBy) (trainX testX : Obj V)
    (testSize : Nat) : Res (SplitSets V) := do
  let a ← trainX.extractLabels samp (labelTarget by' testSize)
  let b ← testX.extractLabels samp (labelTarget by' testSize)
  return ⟨a.1, b.1, some (a.2, b.2)⟩

/-- The three kinds of labels (base.py:1665-1723). -/
def splitLabels (samp : List Nat → Nat → List Nat) (o : Obj V) (labels : Labels V)
    (trainX testX : Obj V) (trainI testI : List Nat) (testSize : Nat) : Res (SplitSets V) :=
  match labels with
  | .none => .ok ⟨trainX, testX, none⟩
  | .obj l => o.splitObj samp l trainX testX trainI testI
  | .ids by' => splitIds samp by' trainX testX testSize

/-- `trainAndTestSets(testFraction, labels, randomOrder)` (base.py:1651-1725).  `order` is the list
of indices after the shuffle (in order when `randomOrder` is false).  The product
`testFraction * n` is exact here, the code computes it in floating point.  Object names are not
modelled. -/
def trainAndTestSets (samp : List Nat → Nat → List Nat) (o : Obj V) (order : List Nat) (frac : Rat)
    (labels : Labels V) : Res (SplitSets V) := do
  if ¬ (0 ≤ frac ∧ frac ≤ 1) then .error .InvalidArgumentValue
  else
    let testSize := (pyRound (frac * o.pts.len)).toNat
    let split := o.pts.len - testSize
    let trainX ← o.copyPoints samp (order.take split)
    let testX ← o.copyPoints samp (order.drop split)
    o.splitLabels samp labels trainX testX (order.take split) (order.drop split)
      testSize

end Obj
end Nimble
