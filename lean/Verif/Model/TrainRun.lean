import Verif.Model.ValidatorData
import Verif.Model.ApplyScores

/-!
# `trainAndApply`, `trainAndTest`, `trainAndTestOnTrainingData`, `normalizeData`
(`nimble/core/learn.py:491-525, 988-1045, 1191-1202, 1360-1369`, `universal_interface.py:283-312, 1128-1139, 1239-1306,
1513-1524`)

The learner proper is a parameter. Arguments, random seeds, tuning, multi-class strategies, score modes (C77) and
logging are left out; an identifier of the labels is an index or a name.
-/

namespace Nimble.Run

variable {V M Q : Type}

/-- The learner proper: `named` says that it is a classification or regression learner; `apply` returns a width and
rows without names. -/
structure Lrn (V M : Type) where
  named : Bool
  fit : Obj V → Option (Obj V) → Res M
  apply : M → Obj V → Res (Nat × List (List V))

/-- The attributes of a TrainedLearner used here (universal_interface.py:925-981). -/
structure Trained (M : Type) where
  model : M
  shape : Nat × Nat
  yNames : Option (List (Option String))

/-- `_validTrainData` (_learnHelpers.py:574-593): a label object must have as many points as trainX. -/
def validTrain (X : Obj V) : YArg V → Res Unit
  | .obj Y => if Y.pts.len = X.pts.len then .ok () else .error .InvalidArgumentValueCombination
  | _ => .ok ()

/-- `_validTestData` (_learnHelpers.py:595-614): `len(testX.points)` with testX None raises AttributeError. -/
def validTestArgs : Option (Obj V) → YArg V → Res Unit
  | none, .obj _ => .error .AttributeError
  | some T, .obj Y => if Y.pts.len = T.pts.len then .ok () else .error .InvalidArgumentValueCombination
  | _, _ => .ok ()

/-- The names of the label features (universal_interface.py:304-306). -/
def labelNames : Option (Obj V) → Option (List (Option String))
  | none => none
  | some y => y.fts.getNamesNoGen

/-- `interface.train` without a multi-class strategy (universal_interface.py:283-312). -/
def train (samp : List Nat → Nat → List Nat) (L : Lrn V M) (X : Obj V) (Y : YArg V) : Res (Trained M) := do
  let d ← separate samp X Y
  let m ← L.fit d.1 d.2
  return ⟨m, (d.1.pts.len, d.1.fts.len), labelNames d.2⟩

/-- `_validTestData` of the TrainedLearner (universal_interface.py:1647-1666). -/
def shapeCheck (tl : Trained M) (t : Obj V) : Res Unit :=
  if tl.shape.2 = t.fts.len then .ok ()
  else if tl.shape.1 = tl.shape.2 ∧ t.pts.len = t.fts.len then .ok ()
  else .error .InvalidArgumentValueCombination

/-- The names of the points (universal_interface.py:1297-1299). -/
def withPointNames (t : Obj V) (n : Nat) : Res AxisSt :=
  if t.pts.len = n then AxisSt.setNames ⟨n, none⟩ (Scores.toAssign t.pts.getNamesNoGen) else .ok ⟨n, none⟩

/-- `TrainedLearner.apply` with scoreMode None (universal_interface.py:1239-1306). -/
def apply (L : Lrn V M) (tl : Trained M) (t : Obj V) : Res (Obj V) := do
  shapeCheck tl t
  let p ← L.apply tl.model t
  let fts ← Scores.nameFts L.named p.1 (Scores.toAssign tl.yNames)
  let pts ← withPointNames t p.2.length
  return ⟨p.2, pts, fts⟩

/-- testX if it is None (learn.py:999-1004): a copy of trainX without the label feature. -/
def applyData (samp : List Nat → Nat → List Nat) (X : Obj V) : YArg V → Option (Obj V) → Res (Obj V)
  | _, some T => .ok T
  | .ident id, none =>
    match X.delete samp .feature { target := some (.list [id]) } with
    | (_, .error e) => .error e
    | (o, .ok _) => .ok o
  | _, none => .ok X

/-- `trainAndApply` (learn.py:988-1006). -/
def trainAndApply (samp : List Nat → Nat → List Nat) (L : Lrn V M) (X : Obj V) (Y : YArg V) (T : Option (Obj V)) :
    Res (Obj V) := do
  validTrain X Y
  validTestArgs T .none
  let tl ← train samp L X Y
  let t ← applyData samp X Y T
  apply L tl t

/-- The known values in `test` if testY is None (universal_interface.py:1128-1129): testX itself. -/
def known (T : Obj V) : Option (Obj V) → Obj V
  | none => T
  | some y => y

/-- `TrainedLearner.test` (universal_interface.py:1128-1137); `perf` is the performance function, whose `predict`
is `apply` (calculate/utility.py:482-487). -/
def test (samp : List Nat → Nat → List Nat) (L : Lrn V M) (perf : Obj V → Obj V → Res Q) (tl : Trained M)
    (T : Obj V) (Y : YArg V) : Res Q := do
  let d ← separate samp T Y
  let pred ← apply L tl d.1
  perf (known d.1 d.2) pred

/-- testX and testY as passed to `test` (learn.py:1034-1040); an identifier testY is separated here already. -/
def testArgs (samp : List Nat → Nat → List Nat) (X : Obj V) (Y : YArg V) (T : Option (Obj V)) (TY : YArg V) :
    Res (Obj V × YArg V) :=
  match TY with
  | .none => .ok (T.getD X, Y)
  | .obj y => .ok (T.getD X, .obj y)
  | .ident id => do
    let p ← takeOut samp (T.getD X) .feature [id]
    return (p.1, .obj p.2)

/-- `_trainAndTestBackend` (learn.py:1018-1044). -/
def testBackend (samp : List Nat → Nat → List Nat) (L : Lrn V M) (perf : Obj V → Obj V → Res Q) (X : Obj V)
    (Y : YArg V) (T : Option (Obj V)) (TY : YArg V) : Res Q := do
  let tl ← train samp L X Y
  let t ← testArgs samp X Y T TY
  test samp L perf tl t.1 t.2

/-- `trainAndTest` (learn.py:1191-1202). -/
def trainAndTest (samp : List Nat → Nat → List Nat) (L : Lrn V M) (perf : Obj V → Obj V → Res Q) (X : Obj V)
    (Y : YArg V) (T : Option (Obj V)) (TY : YArg V) : Res Q := do
  validTrain X Y
  validTestArgs T TY
  testBackend samp L perf X Y T TY

/-- `trainAndTestOnTrainingData` without cross-validation (learn.py:1360-1369). -/
def onTrainingData (samp : List Nat → Nat → List Nat) (L : Lrn V M) (perf : Obj V → Obj V → Res Q) (X : Obj V)
    (Y : YArg V) : Res Q := do
  validTrain X Y
  testBackend samp L perf X Y (some X) Y

/-- The feature names of the input are kept if the number of features is the same (learn.py:504-506, 516-518). -/
def keepNames (src r : Obj V) : Res (Obj V) :=
  if r.fts.len = src.fts.len then do
    let f ← r.fts.setNames (Scores.toAssign src.fts.getNamesNoGen)
    return { r with fts := f }
  else .ok r

/-- Normalizing testX if there is one (learn.py:510-520). -/
def normalizeTest (L : Lrn V M) (tl : Trained M) : Option (Obj V) → Res (Option (Obj V))
  | none => .ok none
  | some T => do
    let r ← apply L tl T
    let n ← keepNames T r
    return some n

/-- `normalizeData` (learn.py:491-525). -/
def normalizeData (samp : List Nat → Nat → List Nat) (L : Lrn V M) (X : Obj V) (Y : YArg V) (T : Option (Obj V)) :
    Res (Obj V × Option (Obj V)) := do
  validTrain X Y
  let tl ← train samp L X Y
  let r ← apply L tl X
  let n ← keepNames X r
  let t ← normalizeTest L tl T
  return (n, t)

/-- The data `incrementalTrain` hands to a learner of the custom interface (universal_interface.py:1513-1524,
custom_learner.py:138-177): nothing is separated; for a classification learner `trainY.copy` raises AttributeError
if trainY is an identifier or None. The Boolean says that it is a classification learner. -/
def incrementalData (classification : Bool) (X : Obj V) (Y : YArg V) : Res (Obj V × YArg V) := do
  validTrain X Y
  match classification, Y with
  | true, .ident _ => .error .AttributeError
  | true, .none => .error .AttributeError
  | _, _ => .ok (X, Y)

end Nimble.Run
