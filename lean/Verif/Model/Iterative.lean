import Verif.Model.Tuning

/-!
# The `Iterative` selector (`nimble/core/tune.py:1004-1136`) and `Tuning.copy` (1806-1817)

The validator is an arbitrary function `perf` from arguments to performances (what `HoldoutData` really
returns in these calls is the subject of `Verif.Props.Iterative`, second part); timeouts are not modelled.
-/

namespace Nimble

section Iterative
variable {K V P : Type} [DecidableEq K]

/-- The state of the selector (tune.py:1053-1070). -/
structure IterSt (K V P : Type) where
  idx : PyDict K Nat
  vals : PyDict K (List V)
  curr : PyDict K V
  best : Option (P × PyDict K V)
  count : Nat
  deriving DecidableEq

/-- The loop of `__init__` (tune.py:1058-1066): `vals[idx]` of an empty list raises `IndexError`. -/
def iterInit (le : V → V → Bool) : PyDict K (ArgVal V) → IterSt K V P → Res (IterSt K V P)
  | [], st => .ok st
  | (k, .fixed v) :: rest, st => iterInit le rest { st with curr := PyDict.set st.curr k v }
  | (k, .tune l) :: rest, st =>
    match (l.mergeSort le)[l.length / 2]? with
    | none => .error .IndexError
    | some v =>
      iterInit le rest { st with
        idx := PyDict.set st.idx k (l.length / 2)
        vals := PyDict.set st.vals k (l.mergeSort le)
        curr := PyDict.set st.curr k v }

/-- A new selector. -/
def iterStart (le : V → V → Bool) (args : PyDict K (ArgVal V)) : Res (IterSt K V P) :=
  iterInit le args ⟨[], [], [], none, 0⟩

/-- A neighbour of the current value that is better than the best so far: the value and its performance
(tune.py:1092-1107). -/
def neighbour (isBest : P → P → Bool) (perf : PyDict K V → P) (base : PyDict K V) (p : P) (k : K)
    (v : Option V) : Option (V × P) :=
  match v with
  | none => none
  | some w =>
    if isBest (perf (PyDict.set base k w)) p then some (w, perf (PyDict.set base k w)) else none

/-- `values[idx - 1]` if `idx - 1 >= 0`. -/
def lower (values : List V) (i : Nat) : Option V := if 1 ≤ i then values[i - 1]? else none

/-- The choice between the neighbours (tune.py:1108-1120): the value taken and the new index. -/
def pickNeighbour (isBest : P → P → Bool) (i : Nat) : Option (V × P) → Option (V × P) → Option (V × Nat)
  | some (lo, pl), some (hi, ph) => if isBest ph pl then some (lo, i + 1) else some (hi, i - 1)
  | some (lo, _), none => some (lo, i - 1)
  | none, some (hi, _) => some (hi, i + 1)
  | none, none => none

/-- What is chosen for one argument (tune.py:1089-1120). -/
def trial (isBest : P → P → Bool) (perf : PyDict K V → P) (base : PyDict K V) (p : P) (k : K)
    (values : List V) (i : Nat) : Option (V × Nat) :=
  pickNeighbour isBest i (neighbour isBest perf base p k (lower values i))
    (neighbour isBest perf base p k values[i + 1]?)

/-- `best[name]` and the new `_tuneIdx` for all tuned arguments (tune.py:1088-1120). -/
def trials (isBest : P → P → Bool) (perf : PyDict K V → P) (base : PyDict K V) (p : P)
    (vals : PyDict K (List V)) : PyDict K Nat → PyDict K V × PyDict K Nat
  | [] => ([], [])
  | (k, i) :: rest =>
    let r := trials isBest perf base p vals rest
    match trial isBest perf base p k ((PyDict.get? vals k).getD []) i with
    | none => (r.1, (k, i) :: r.2)
    | some (v, j) => ((k, v) :: r.1, (k, j) :: r.2)

/-- `self._currArgs.update(best)` (tune.py:1127). -/
def updateArgs (curr : PyDict K V) (best : PyDict K V) : PyDict K V :=
  best.foldl (fun d q => PyDict.set d q.1 q.2) curr

/-- `_bestPerf` and `_bestArgs` after validating `c` (tune.py:1129-1132). -/
def betterOf (isBest : P → P → Bool) (perf : PyDict K V → P) (b : P × PyDict K V) (c : PyDict K V) :
    P × PyDict K V := if isBest (perf c) b.1 then (perf c, c) else b

/-- The end of `__next__` (tune.py:1122-1136); `inc` is `validator._incremental`. -/
def iterMove (isBest : P → P → Bool) (perf : PyDict K V → P) (inc : Bool) (st : IterSt K V P)
    (b : P × PyDict K V) (r : PyDict K V × PyDict K Nat) : Res (IterSt K V P × PyDict K V) :=
  if r.1 = [] then
    if inc then .ok ({ st with idx := r.2, count := st.count + 1 }, st.curr) else .error .StopIteration
  else
    .ok ({ st with idx := r.2, curr := updateArgs st.curr r.1,
                   best := some (betterOf isBest perf b (updateArgs st.curr r.1)), count := st.count + 1 },
      updateArgs st.curr r.1)

/-- `__next__` (tune.py:1072-1136); `reached p` tells whether the threshold is reached. -/
def iterNext (isBest : P → P → Bool) (perf : PyDict K V → P) (reached : P → Bool) (maxIter : Nat)
    (inc : Bool) (st : IterSt K V P) : Res (IterSt K V P × PyDict K V) :=
  match st.best with
  | none => .ok ({ st with best := some (perf st.curr, st.curr), count := st.count + 1 }, st.curr)
  | some b =>
    if st.count ≥ maxIter || reached b.1 then .error .StopIteration
    else iterMove isBest perf inc st b (trials isBest perf b.2 b.1 st.vals st.idx)

/-- Iterating over the selector: the argument sets returned, and the state at the end or after `n`
steps. -/
def iterRun (isBest : P → P → Bool) (perf : PyDict K V → P) (reached : P → Bool) (maxIter : Nat)
    (inc : Bool) : Nat → IterSt K V P → List (PyDict K V) × IterSt K V P
  | 0, st => ([], st)
  | n + 1, st =>
    match iterNext isBest perf reached maxIter inc st with
    | .error _ => ([], st)
    | .ok q => (q.2 :: (iterRun isBest perf reached maxIter inc n q.1).1,
        (iterRun isBest perf reached maxIter inc n q.1).2)

end Iterative

/-! ## Tuning objects -/

/-- The selections (tune.py:1642-1646). -/
inductive Selection where
  | bruteForce | consecutive | bayesian | iterative | storm
  deriving DecidableEq

/-- The validations (tune.py:1647-1651). -/
inductive Validation where
  | crossValidation | leaveOneOut | leaveOneGroupOut | data | proportion
  deriving DecidableEq

/-- The parameters of `Tuning.__init__` (tune.py:1652-1657). -/
def tuningParams : List String :=
  ["selection", "validation", "performanceFunction", "loops", "order", "maxIterations", "timeout",
   "threshold", "learnerArgsFunc", "initRandom", "randomizeAxisFactor", "folds", "foldFeature", "validateX",
   "validateY", "proportion"]

/-- The keys of `_selectorArgs` (tune.py:1673-1686). -/
def selectorKeys : Selection → List String
  | .bruteForce => []
  | .consecutive => ["loops", "order"]
  | .storm => ["learnerArgsFunc", "initRandom", "randomizeAxisFactor", "maxIterations", "timeout", "threshold"]
  | _ => ["maxIterations", "timeout", "threshold"]

/-- The keys of `_validatorArgs` (tune.py:1707-1717). -/
def validatorKeys (s : Selection) : Validation → List String
  | .crossValidation => ["folds"]
  | .leaveOneOut => []
  | .leaveOneGroupOut => ["foldFeature"]
  | .data => ["validateX", "validateY"] ++ (if s = .iterative then ["allowIncremental"] else [])
  | .proportion => ["proportion"]

/-- The combinations `Tuning.__init__` accepts (tune.py:1672, 1695-1698). -/
def tuningAccepts (s : Selection) (v : Validation) : Bool :=
  !(decide (s ∈ [Selection.bayesian, .iterative, .storm])) || decide (v = .data)

/-- A call with keyword arguments: an unknown or repeated keyword raises `TypeError`. -/
def kwCall (params keys : List String) : Res Unit :=
  if keys.all (fun k => decide (k ∈ params)) && decide (keys.Nodup) then .ok () else .error .TypeError

/-- `Tuning.copy` (tune.py:1810-1812). -/
def tuningCopy (s : Selection) (v : Validation) : Res Unit :=
  kwCall tuningParams (["selection", "validation", "performanceFunction"] ++ selectorKeys s ++ validatorKeys s v)

end Nimble
