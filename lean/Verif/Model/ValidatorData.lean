import Verif.Model.Folds

/-!
# The data of the validators: `HoldoutProportion`, `HoldoutValidator`, `LeaveOneGroupOut`
(`nimble/core/tune.py:172-222, 455-515, 669-688`)

The random choice of points is a parameter. An identifier of a feature is an index or a name; lists of identifiers
are not modelled.
-/

namespace Nimble

variable {V : Type}

/-- The arguments `Y` and `validateY`. -/
inductive YArg (V : Type) where
  | none
  | ident (id : Ident)
  | obj (o : Obj V)

/-- `extract` as the pair of what is left and what was taken. -/
def takeOut (samp : List Nat → Nat → List Nat) (o : Obj V) (ax : Ax) (ids : List Ident) : Res (Obj V × Obj V) :=
  match o.extract samp ax { target := some (.list ids) } with
  | (_, .error e) => .error e
  | (rest, .ok r) => .ok (rest, r)

/-- `X = X.copy(); Y = X.features.extract(Y)` for an identifier (tune.py:211-213, 497-499, 467-469); an object is
left as it is. -/
def separate (samp : List Nat → Nat → List Nat) (X : Obj V) : YArg V → Res (Obj V × Option (Obj V))
  | .none => .ok (X, .none)
  | .obj o => .ok (X, some o)
  | .ident id => do
    let p ← takeOut samp X .feature [id]
    return (p.1, some p.2)

/-- `len(X.points) == len(Y.points)` (tune.py:215-217, 501-504). -/
def sameLength (X : Obj V) : Option (Obj V) → Bool
  | none => true
  | some Y => X.pts.len == Y.pts.len

/-- `Validator.__init__` (tune.py:211-219). -/
def validatorData (samp : List Nat → Nat → List Nat) (X : Obj V) (Y : YArg V) : Res (Obj V × Option (Obj V)) := do
  let p ← separate samp X Y
  if sameLength p.1 p.2 then .ok p else .error .InvalidArgumentValueCombination

/-- `validateY` if it is None (tune.py:492-496). -/
def validateYArg (Y : YArg V) : YArg V → Res (YArg V)
  | .none => match Y with
    | .ident id => .ok (.ident id)
    | _ => .error .InvalidArgumentValue
  | y => .ok y

/-- `HoldoutValidator.__init__` (tune.py:487-515): the training data and the validation data. -/
def holdoutData (samp : List Nat → Nat → List Nat) (X : Obj V) (Y : YArg V) (vX : Obj V) (vY : YArg V) :
    Res ((Obj V × Option (Obj V)) × (Obj V × Option (Obj V))) := do
  let vy ← validateYArg Y vY
  let v ← validatorData samp vX vy
  let t ← validatorData samp X Y
  return (t, v)

/-- `int(proportion * len(X.points))` (tune.py:675), without float rounding. -/
def holdoutNumber (p : Rat) (n : Nat) : Nat := (p * (n : Rat)).floor.toNat

/-- The indices as identifiers. -/
def intIds (l : List Nat) : List Ident := l.map (fun (i : Nat) => .int i)

/-- Splitting Y as X (tune.py:680-684); `None.copy()` raises. -/
def splitY (samp : List Nat → Nat → List Nat) (sel : List Nat) : YArg V → Res (YArg V × YArg V)
  | .none => .error .AttributeError
  | .ident id => .ok (.ident id, .ident id)
  | .obj Y => do
    let p ← takeOut samp Y .point (intIds sel)
    return (.obj p.1, .obj p.2)

/-- `HoldoutProportion.__init__` (tune.py:669-688); `choice` is `numpyRandom.choice(range(n), number,
replace=False)`. -/
def proportionData (samp : List Nat → Nat → List Nat) (choice : Nat → Nat → List Nat) (p : Rat) (X : Obj V)
    (Y : YArg V) : Res ((Obj V × Option (Obj V)) × (Obj V × Option (Obj V))) :=
  if p ≤ 0 ∨ 1 ≤ p then .error .InvalidArgumentValue
  else do
    let x ← takeOut samp X .point (intIds (choice X.pts.len (holdoutNumber p X.pts.len)))
    let y ← splitY samp (choice X.pts.len (holdoutNumber p X.pts.len)) Y
    holdoutData samp x.1 y.1 x.2 y.2

/-- `foldFeature == Y` (tune.py:463): identifiers are compared as they are written. -/
def sameIdent (id : Ident) : YArg V → Bool
  | .ident y => decide (id = y)
  | _ => false

/-- The values of an object that is one feature. -/
def columnOf (o : Obj V) : List V := o.data.flatMap id

/-- `X.features[foldFeature]` (tune.py:466). -/
def foldValues (samp : List Nat → Nat → List Nat) (X : Obj V) (id : Ident) : Res (List V) := do
  let c ← (X.copy samp .feature { target := some (.list [id]) }).2
  return columnOf c

/-- `points.copy(keep)` (tune.py:180-182). -/
def keepPoints (samp : List Nat → Nat → List Nat) (keep : List Nat) (o : Obj V) : Res (Obj V) :=
  (o.copy samp .point { target := some (.list (intIds keep)) }).2

/-- The same for an object that may be None. -/
def keepOpt (samp : List Nat → Nat → List Nat) (keep : List Nat) : Option (Obj V) → Res (Option (Obj V))
  | none => .ok none
  | some o => do
    let r ← keepPoints samp keep o
    return some r

/-- `LeaveOneGroupOut.__init__` with an identifier as foldFeature (tune.py:455-476) and `GroupFoldIterator`
(tune.py:172-193): the data and the folds. -/
def groupOutData [DecidableEq V] (samp : List Nat → Nat → List Nat) (missing : V → Bool) (X : Obj V) (Y : YArg V)
    (fold : Ident) : Res ((Obj V × Option (Obj V)) × List (List Nat)) :=
  if sameIdent fold Y then .error .InvalidArgumentValueCombination
  else do
    let vals ← foldValues samp X fold
    let d ← validatorData samp X Y
    let x ← keepPoints samp (keepNonMissing missing vals) d.1
    let y ← keepOpt samp (keepNonMissing missing vals) d.2
    return ((x, y), groupFoldList (pick vals (keepNonMissing missing vals)))

end Nimble
