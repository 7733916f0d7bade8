import Verif.Model.Learner
import Verif.Model.Tuning

/-!
# `HoldoutData` (`nimble/core/tune.py:536-633`)

The validator of `Tuning(validation="data")`, on the memory of `Verif.Model.Learner`.  The training data
is `x`, the validation data `vx`; the performance function is part of what the learner computes from
`vx`.  Logging is not modelled.
-/

namespace Nimble.Learner

variable {K V D B P : Type} [DecidableEq K] [DecidableEq V]

/-- The state of the validator (tune.py:232-234, 575-580); learners are addresses, `_updater` is the
learner its bound method belongs to. -/
structure Hold (K V B P : Type) where
  mem : Mem K V B
  learner : Option Nat
  base : Option Nat
  incremental : Option Bool
  updater : Option Nat
  last : PyDict K V
  record : VSt (PyDict K V) P
  bestTL : Option Nat

namespace Hold

/-- `__init__` (tune.py:575-580). -/
def start (m : Mem K V B) (allowIncremental : Bool) : Hold K V B P :=
  ⟨m, none, none, if allowIncremental then none else some false, none, [], VSt.init, none⟩

/-- The first training (tune.py:604-608). -/
def first (L : Lib K V D B P) (x : D) (h : Hold K V B P) (a : PyDict K V) : Hold K V B P × Res Unit :=
  match L.fresh h.mem x a with
  | (m, .ok t) => ({ h with mem := m, learner := some t, base := some t, last := a }, .ok ())
  | (m, .error e) => ({ h with mem := m }, .error e)

/-- `retrain` of learner `u`, then `self._lastArguments = arguments` (tune.py:622-624, 626-627). -/
def again (L : Lib K V D B P) (x : D) (h : Hold K V B P) (u : Nat) (a : PyDict K V) :
    Hold K V B P × Res Unit :=
  match L.retrain h.mem u x a with
  | (m, .ok _) => ({ h with mem := m, last := a }, .ok ())
  | (m, .error e) => ({ h with mem := m }, .error e)

/-- "only retrain if arguments have changed" (tune.py:621-624, 625-627). -/
def againIfChanged (L : Lib K V D B P) (x : D) (h : Hold K V B P) (u : Nat) (a : PyDict K V) :
    Hold K V B P × Res Unit :=
  if a ≠ h.last then again L x h u a else (h, .ok ())

/-- `incrementalTrain` of learner `u` (tune.py:612-615, 626-627). -/
def more (L : Lib K V D B P) (x : D) (h : Hold K V B P) (u : Nat) (a : PyDict K V) :
    Hold K V B P × Res Unit :=
  match L.incrementalTrain h.mem u x a with
  | (m, .ok _) => ({ h with mem := m, last := a, updater := some u, incremental := some true }, .ok ())
  | (m, .error e) => ({ h with mem := m }, .error e)

/-- `except TypeError: self._incremental = False`, followed by `retrain` (tune.py:616-624); the classes
derived from `TypeError` are those of nimble/exceptions.py:38-85. -/
def orRetrain (L : Lib K V D B P) (x : D) (t : Nat) (a : PyDict K V) (r : Hold K V B P × Res Unit) :
    Hold K V B P × Res Unit :=
  match r.2 with
  | .error .TypeError => againIfChanged L x { r.1 with incremental := some false, updater := some t } t a
  | .error .InvalidArgumentType =>
    againIfChanged L x { r.1 with incremental := some false, updater := some t } t a
  | _ => r

/-- The second training (tune.py:609-624). -/
def second (L : Lib K V D B P) (x : D) (h : Hold K V B P) (t : Nat) (a : PyDict K V) :
    Hold K V B P × Res Unit :=
  match h.incremental with
  | none => orRetrain L x t a (more L x h t a)
  | some _ => againIfChanged L x { h with updater := some t } t a

/-- Every later training (tune.py:625-627): by the bound method. -/
def later (L : Lib K V D B P) (x : D) (h : Hold K V B P) (u : Nat) (a : PyDict K V) :
    Hold K V B P × Res Unit :=
  if h.incremental = some true then more L x h u a else againIfChanged L x h u a

/-- The training in `_validate` (tune.py:604-627). -/
def prepare (L : Lib K V D B P) (x : D) (h : Hold K V B P) (a : PyDict K V) : Hold K V B P × Res Unit :=
  match h.learner with
  | none => first L x h a
  | some t =>
    match h.updater with
    | none => second L x h t a
    | some u => later L x h u a

/-- `self._trainedLearner.test(…)` (tune.py:629-631). -/
def test (L : Lib K V D B P) (vx : D) (h : Hold K V B P) : Res P :=
  match h.learner with
  | none => .error .AttributeError
  | some t => L.apply h.mem t vx []

/-- `copy.copy(self._trainedLearnerBase)` as `bestTrainedLearner` (tune.py:593). -/
def keepBest (h : Hold K V B P) : Hold K V B P :=
  match h.base with
  | none => { h with bestTL := none }
  | some t => { h with mem := (h.mem.shallow t).1, bestTL := some (h.mem.shallow t).2 }

/-- The recording in `validate` (tune.py:588-593). -/
def note (isBest : P → P → Bool) (h : Hold K V B P) (a : PyDict K V) (record : Bool) (p : P) :
    Hold K V B P :=
  let r := (h.record.validate isBest a record (.ok p)).1
  if record && VSt.improves isBest h.record.best p then { h.keepBest with record := r }
  else { h with record := r }

/-- The end of `validate` after `_validate` trained (tune.py:587-595). -/
def judged (L : Lib K V D B P) (isBest : P → P → Bool) (vx : D) (a : PyDict K V) (record : Bool)
    (r : Hold K V B P × Res Unit) : Hold K V B P × Res P :=
  match r.2 with
  | .error e => (r.1, .error e)
  | .ok _ =>
    match test L vx r.1 with
    | .error e => (r.1, .error e)
    | .ok p => (note isBest r.1 a record p, .ok p)

/-- `validate` (tune.py:582-595); `a` are the merged arguments, a new dictionary. -/
def validate (L : Lib K V D B P) (isBest : P → P → Bool) (x vx : D) (h : Hold K V B P) (a : PyDict K V)
    (record : Bool) : Hold K V B P × Res P :=
  judged L isBest vx a record (prepare L x h a)

/-- `_updateTrainedLearner` (tune.py:597-601). -/
def updateTL (h : Hold K V B P) (trial : Bool) : Hold K V B P :=
  if trial then
    match h.base with
    | none => { h with learner := none }
    | some t => { h with mem := (h.mem.shallow t).1, learner := some (h.mem.shallow t).2 }
  else { h with learner := h.base }

/-- Successive calls of `validate` (arguments and `record`), until one raises: the state and the
performances returned. -/
def run (L : Lib K V D B P) (isBest : P → P → Bool) (x vx : D) :
    List (PyDict K V × Bool) → Hold K V B P → Hold K V B P × Res (List P)
  | [], h => (h, .ok [])
  | c :: cs, h =>
    match validate L isBest x vx h c.1 c.2 with
    | (h', .error e) => (h', .error e)
    | (h', .ok p) => ((run L isBest x vx cs h').1, (run L isBest x vx cs h').2.map (fun ps => p :: ps))

/-- The validations of the iterative selector after the first one (tune.py:1087-1129): before each of them a
copy of the base learner is made.  (A single `_updateTrainedLearner(trial=False)` is followed by another
call before anything is validated.) -/
def trialRun (L : Lib K V D B P) (isBest : P → P → Bool) (x vx : D) :
    List (PyDict K V × Bool) → Hold K V B P → Hold K V B P × Res (List P)
  | [], h => (h, .ok [])
  | c :: cs, h =>
    match validate L isBest x vx (updateTL h true) c.1 c.2 with
    | (h', .error e) => (h', .error e)
    | (h', .ok p) =>
      ((trialRun L isBest x vx cs h').1, (trialRun L isBest x vx cs h').2.map (fun ps => p :: ps))

end Hold

end Nimble.Learner
