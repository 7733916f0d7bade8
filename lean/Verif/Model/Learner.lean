import Verif.Py

/-!
# `TrainedLearner` objects

`train`, `retrain`, `incrementalTrain` and `apply` of `nimble/core/interfaces/universal_interface.py` on
a memory of learner objects, dictionaries and backends, so that sharing between copies is visible.

The package behind an interface is a parameter (`Lib`).  The transformation of arguments is a copy, as
for custom and nimble learners (custom_learner.py:138-143); data transformation, random seeds, logging
and several sets of parameter names for one learner are not modelled.
-/

namespace Nimble.Learner

variable {K V D B P : Type} [DecidableEq K]

/-- A learner of a package: its parameters, those with a default, those of its `apply`, and what
training, incremental training and applying compute from a backend. -/
structure Lib (K V D B P : Type) where
  params : List K
  defaults : List K
  applyParams : List K
  isTune : V → Bool
  train : D → PyDict K V → Res B
  inc : D → B → PyDict K V → Res B
  out : B → D → PyDict K V → Res P

/-- The attributes `_backend`, `_arguments` and `_transformedArguments` of a `TrainedLearner`
(universal_interface.py:969-976), as addresses. -/
structure TL where
  backend : Nat
  args : Nat
  trans : Nat
  deriving DecidableEq

/-- The memory. -/
structure Mem (K V B : Type) where
  dicts : List (PyDict K V)
  backends : List B
  tls : List TL

namespace Mem

def tl (m : Mem K V B) (t : Nat) : TL := (m.tls[t]?).getD ⟨0, 0, 0⟩

def dict (m : Mem K V B) (a : Nat) : PyDict K V := (m.dicts[a]?).getD []

/-- `arguments` of a learner (universal_interface.py:1009-1013). -/
def arguments (m : Mem K V B) (t : Nat) : PyDict K V := m.dict (m.tl t).args

/-- The arguments stored for applying. -/
def stored (m : Mem K V B) (t : Nat) : PyDict K V := m.dict (m.tl t).trans

/-- `d[k] = v` for the dictionary at an address. -/
def put (m : Mem K V B) (a : Nat) (k : K) (v : V) : Mem K V B :=
  { m with dicts := m.dicts.modify a (fun d => PyDict.set d k v) }

/-- A new learner object with a new backend and new dictionaries. -/
def alloc (m : Mem K V B) (b : B) (args trans : PyDict K V) : Mem K V B × Nat :=
  (⟨m.dicts ++ [args, trans], m.backends ++ [b],
    m.tls ++ [⟨m.backends.length, m.dicts.length, m.dicts.length + 1⟩]⟩, m.tls.length)

/-- `copy.copy(learner)`: a new object with the same attributes. -/
def shallow (m : Mem K V B) (t : Nat) : Mem K V B × Nat :=
  ({ m with tls := m.tls ++ [m.tl t] }, m.tls.length)

end Mem

namespace Lib

/-- A needed parameter has neither a value nor a default (universal_interface.py:368-401). -/
def lacks (L : Lib K V D B P) (args : PyDict K V) : Bool :=
  L.params.any (fun p => !PyDict.has args p && !decide (p ∈ L.defaults))

/-- A value is given for something that is no parameter (universal_interface.py:403-424). -/
def extra (L : Lib K V D B P) (args : PyDict K V) : Bool :=
  (PyDict.keys args).any (fun k => !decide (k ∈ L.params))

/-- `_validateLearnerArgumentValues` (universal_interface.py:351-424) for a single set of parameters. -/
def check (L : Lib K V D B P) (args : PyDict K V) : Res Unit :=
  if L.lacks args || L.extra args then .error .InvalidArgumentValue else .ok ()

/-- `_trainBackend` (universal_interface.py:314-339). -/
def trainBackend (L : Lib K V D B P) (x : D) (args : PyDict K V) : Res B := do
  L.check args
  L.train x args

/-- `train` (universal_interface.py:283-312): a new learner.  `args` is a new dictionary, made by
`mergeArguments` (learn.py:805). -/
def fresh (L : Lib K V D B P) (m : Mem K V B) (x : D) (args : PyDict K V) : Mem K V B × Res Nat :=
  match L.trainBackend x args with
  | .error e => (m, .error e)
  | .ok b => ((m.alloc b args args).1, .ok (m.alloc b args args).2)

/-- The loop of `retrain` (universal_interface.py:1449-1457). -/
def assign (L : Lib K V D B P) (t : TL) : List (K × V) → Mem K V B → Mem K V B × Res Unit
  | [], m => (m, .ok ())
  | (k, v) :: rest, m =>
    if L.isTune v then (m, .error .InvalidArgumentValue)
    else assign L t rest ((m.put t.args k v).put t.trans k v)

/-- The learner gets its new attributes (universal_interface.py:1472-1475). -/
def renew (m : Mem K V B) (t : Nat) (b : B) (args trans : PyDict K V) : Mem K V B :=
  ⟨m.dicts ++ [args, trans], m.backends ++ [b],
    m.tls.set t ⟨m.backends.length, m.dicts.length, m.dicts.length + 1⟩⟩

/-- Training and storing the results (universal_interface.py:1464-1475). -/
def finish (L : Lib K V D B P) (m : Mem K V B) (t : Nat) (x : D) (merged : PyDict K V) :
    Mem K V B × Res Unit :=
  match L.trainBackend x (m.stored t) with
  | .error e => (m, .error e)
  | .ok b => (renew m t b merged (m.stored t), .ok ())

/-- What follows the loop, unless it raised. -/
def andThen (r : Mem K V B × Res Unit) (f : Mem K V B → Mem K V B × Res Unit) : Mem K V B × Res Unit :=
  match r.2 with
  | .error e => (r.1, .error e)
  | .ok _ => f r.1

/-- `retrain` (universal_interface.py:1333-1478); `merged` are the merged arguments. -/
def retrain (L : Lib K V D B P) (m : Mem K V B) (t : Nat) (x : D) (merged : PyDict K V) :
    Mem K V B × Res Unit :=
  match L.check merged with
  | .error e => (m, .error e)
  | .ok _ => andThen (L.assign (m.tl t) merged m) (fun m' => L.finish m' t x merged)

/-- `self.arguments.update(arguments)` (universal_interface.py:1515). -/
def update (m : Mem K V B) (a : Nat) : List (K × V) → Mem K V B
  | [] => m
  | (k, v) :: rest => update (m.put a k v) a rest

/-- The incremental training proper (universal_interface.py:1516-1525); the backend is changed in
place (custom_learner.py:166-177, `partial_fit` of scikit-learn). -/
def incBackend (L : Lib K V D B P) (m : Mem K V B) (t : Nat) (x : D) : Mem K V B × Res Unit :=
  match m.backends[(m.tl t).backend]? with
  | none => (m, .error .AttributeError)
  | some b =>
    match L.inc x b (m.arguments t) with
    | .error e => (m, .error e)
    | .ok b' => ({ m with backends := m.backends.set (m.tl t).backend b' }, .ok ())

/-- `incrementalTrain` (universal_interface.py:1484-1525). -/
def incrementalTrain (L : Lib K V D B P) (m : Mem K V B) (t : Nat) (x : D) (args : PyDict K V) :
    Mem K V B × Res Unit :=
  L.incBackend (update m (m.tl t).args args) t x

/-- The arguments passed to the learner's `apply` (`_getMethodArguments`,
universal_interface.py:501-527). -/
def methodArgs (L : Lib K V D B P) (new stored : PyDict K V) : Res (PyDict K V) :=
  if (PyDict.keys new).any (fun k => !decide (k ∈ L.applyParams)) then .error .InvalidArgumentValue
  else .ok (L.applyParams.filterMap (fun k => ((PyDict.get? new k).or (PyDict.get? stored k)).map (fun v => (k, v))))

/-- What a backend with stored arguments computes. -/
def outcome (L : Lib K V D B P) (b : B) (x : D) (new stored : PyDict K V) : Res P := do
  let a ← L.methodArgs new stored
  L.out b x a

/-- `apply` and `test` (universal_interface.py:1248-1266, custom_learner.py:179-184). -/
def apply (L : Lib K V D B P) (m : Mem K V B) (t : Nat) (x : D) (new : PyDict K V) : Res P :=
  match m.backends[(m.tl t).backend]? with
  | none => .error .AttributeError
  | some b => L.outcome b x new (m.stored t)

/-! ## Several learners for one multi-class problem -/

/-- The learners trained for the binary problems (universal_interface.py:225-239, 264-277): all get the
same dictionary of arguments, whose address is `a`. -/
def freshAll (L : Lib K V D B P) (a : Nat) : List D → Mem K V B → Mem K V B × Res (List Nat)
  | [], m => (m, .ok [])
  | x :: xs, m =>
    match L.trainBackend x (m.dict a) with
    | .error e => (m, .error e)
    | .ok b =>
      let m' : Mem K V B := ⟨m.dicts ++ [m.dict a], m.backends ++ [b],
        m.tls ++ [⟨m.backends.length, a, m.dicts.length⟩]⟩
      ((freshAll L a xs m').1, (freshAll L a xs m').2.map (fun l => m.tls.length :: l))

/-- `TrainedLearners(trainedLearners, …)` (universal_interface.py:1716-1731): the attributes of the first
learner; `apply` uses `trainedLearners` only (1814-1890). -/
def multi (L : Lib K V D B P) (m : Mem K V B) (xs : List D) (args : PyDict K V) :
    Mem K V B × Res (Nat × List Nat) :=
  match L.freshAll m.dicts.length xs { m with dicts := m.dicts ++ [args] } with
  | (m', .ok (t :: ts)) => ((m'.shallow t).1, .ok ((m'.shallow t).2, t :: ts))
  | (m', .ok []) => (m', .error .IndexError)
  | (m', .error e) => (m', .error e)

/-- What the learners of a multi-class learner say about `x`; the vote is a function of these. -/
def applyAll (L : Lib K V D B P) (m : Mem K V B) (ts : List Nat) (x : D) : List (Res P) :=
  ts.map (fun t => L.apply m t x [])

end Lib

end Nimble.Learner
