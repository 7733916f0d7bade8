import Verif.Py

/-!
# Hyperparameter tuning

`mergeArguments` (`nimble/_utility.py:94-126`) and, from `nimble/core/tune.py`, the bookkeeping of
`Validator.validate` (251-263), `BruteForce` (731-782), `Consecutive` (785-887) and the ranges of
`Tune` (1382-1449).  Learners and performance functions are arbitrary parameters.
-/

namespace Nimble

/-! ## mergeArguments -/

section Merge
variable {K V : Type} [DecidableEq K] [DecidableEq V]

/-- `k in ret and ret[k] != val` (_utility.py:119). -/
def disagrees (ret : PyDict K V) (k : K) (v : V) : Bool :=
  match PyDict.get? ret k with
  | some v' => decide (v' ≠ v)
  | none => false

/-- The loop over the smaller dictionary (_utility.py:117-124). -/
def mergeLoop : PyDict K V → PyDict K V → Res (PyDict K V)
  | ret, [] => .ok ret
  | ret, (k, v) :: rest =>
    if disagrees ret k v then .error .InvalidArgumentValueCombination
    else mergeLoop (PyDict.set ret k v) rest

/-- The contents of the dictionary `mergeArguments` returns (_utility.py:94-126); `None` is treated
like an empty dictionary. -/
def mergeArguments (arguments kwargs : PyDict K V) : Res (PyDict K V) :=
  if arguments = [] ∧ kwargs = [] then .ok []
  else if arguments = [] then .ok kwargs
  else if kwargs = [] then .ok arguments
  else if arguments.length < kwargs.length then mergeLoop (PyDict.ofPairs kwargs) arguments
  else mergeLoop (PyDict.ofPairs arguments) kwargs

/-- `mergeArguments` on a heap of dictionaries: in every branch the returned dictionary is a new
object (`{}`, `.copy()`, or the fresh `ret`) – _utility.py:100-107, 126.  `None` arguments are
`none`. -/
def mergeArgumentsH (heap : List (PyDict K V)) (a k : Option Nat) :
    Res (List (PyDict K V) × Nat) := do
  let r ← mergeArguments ((a.bind (heap[·]?)).getD []) ((k.bind (heap[·]?)).getD [])
  return (heap ++ [r], heap.length)

end Merge

/-! ## Validator -/

/-- The recorded state of a `Validator` (tune.py:232-234). -/
structure VSt (A P : Type) where
  results : List P
  arguments : List A
  best : Option (P × A)

namespace VSt
variable {A P : Type}

def init : VSt A P := ⟨[], [], none⟩

/-- `self._best is None or self._isBest(performance, self._best[0])` (tune.py:260). -/
def improves (isBest : P → P → Bool) (best : Option (P × A)) (p : P) : Bool :=
  match best with
  | none => true
  | some (q, _) => isBest p q

/-- `validate` (tune.py:251-263); `outcome` is what `_validate(arguments)` returned or raised. -/
def validate (isBest : P → P → Bool) (st : VSt A P) (args : A) (record : Bool) (outcome : Res P) :
    VSt A P × Res P :=
  match outcome with
  | .error e => (st, .error e)
  | .ok p =>
    if record then
      (⟨st.results ++ [p], st.arguments ++ [args],
        if improves isBest st.best p then some (p, args) else st.best⟩, .ok p)
    else (st, .ok p)

/-- A history of `validate` calls: arguments, `record` and the outcome of `_validate`. -/
def runAll (isBest : P → P → Bool) (calls : List (A × Bool × Res P)) : VSt A P :=
  calls.foldl (fun st c => (st.validate isBest c.1 c.2.1 c.2.2).1) init

end VSt

/-! ## Argument values -/

/-- A value in the `arguments` dictionary: an ordinary value or a `Tune` object with its values. -/
inductive ArgVal (V : Type) where
  | fixed (v : V)
  | tune (vals : List V)

/-- The iterable put into `iterableArgDict` (tune.py:753-761). -/
def ArgVal.values {V : Type} : ArgVal V → List V
  | .fixed v => [v]
  | .tune vals => vals

/-! ## BruteForce -/

section Brute
variable {K V : Type} [DecidableEq K]

/-- `itertools.product` (last position fastest). -/
def product : List (List V) → List (List V)
  | [] => [[]]
  | xs :: rest => xs.flatMap (fun x => (product rest).map (x :: ·))

/-- Loop body counting the combinations (tune.py:754-757). -/
def countStep (n : Nat) (p : K × ArgVal V) : Nat :=
  match p.2 with
  | .tune vals => n * vals.length
  | .fixed _ => n

/-- `_numCombinations` (tune.py:752-757, 772). -/
def numCombinations (args : PyDict K (ArgVal V)) : Nat := args.foldl countStep 1

/-- `_combinationsList` (tune.py:765-770, 773).  The empty dictionary gives `[{}]` in either
branch. -/
def combinations (args : PyDict K (ArgVal V)) : List (PyDict K V) :=
  (product (args.map (fun p => p.2.values))).map
    (fun c => PyDict.ofPairs (List.zip (PyDict.keys args) c))

/-- `BruteForce.__next__` up to the call of `validate` (tune.py:775-781): the new `_index` and the
combination, or `StopIteration`. -/
def bruteNext (args : PyDict K (ArgVal V)) (index : Nat) : Nat × Res (PyDict K V) :=
  if index ≥ numCombinations args then (0, .error .StopIteration)
  else match (combinations args)[index]? with
    | none => (index, .error .IndexError)
    | some c => (index + 1, .ok c)

/-- `n` successive calls of `__next__`. -/
def bruteRun (args : PyDict K (ArgVal V)) : Nat → Nat → List (Res (PyDict K V))
  | _, 0 => []
  | index, n + 1 => (bruteNext args index).2 :: bruteRun args (bruteNext args index).1 n

end Brute

/-! ## Consecutive -/

section Consecutive
variable {K V P : Type} [DecidableEq K] [DecidableEq V]

/-- State of a `Consecutive` selector (tune.py:821-829); iterators are the lists of the values still
to come. -/
structure ConsSt (K V P : Type) where
  order : Option (List K)
  currentLoop : Nat
  tune : PyDict K (List V)
  target : Nat
  bestPerformance : Option P
  bestArgs : PyDict K V
  currArgs : Option (PyDict K V)
  tried : List (PyDict K V)

/-- The loop initialising the arguments (tune.py:841-851): current arguments, iterators, and the
order created. `given` is the order passed by the user. -/
def consInit (given : Option (List K)) : PyDict K (ArgVal V) → PyDict K V → PyDict K (List V) → List K →
    Res (PyDict K V × PyDict K (List V) × List K)
  | [], curr, tune, ord => .ok (curr, tune, ord)
  | (k, .fixed v) :: rest, curr, tune, ord => consInit given rest (PyDict.set curr k v) tune ord
  | (_, .tune []) :: _, _, _, _ => .error .IndexError
  | (k, .tune (v :: vs)) :: rest, curr, tune, ord =>
    match given with
    | none => consInit given rest (PyDict.set curr k v) (PyDict.set tune k vs) (ord ++ [k])
    | some l =>
      if k ∈ l then consInit given rest (PyDict.set curr k v) (PyDict.set tune k vs) ord
      else .error .ImproperObjectAction

/-- `self._currArgs[target] = next(self._tune[target])` (tune.py:857, 863, 876).  Functions
returning `Res (ConsSt …)` give the new state, whose `currArgs` are to be tried, or the exception
that ends the iteration (the state after it is not modelled). -/
def takeNext (st : ConsSt K V P) (curr : PyDict K V) (target : K) : Res (ConsSt K V P) :=
  match PyDict.get? st.tune target with
  | none => .error .KeyError
  | some [] => .error .StopIteration
  | some (v :: vs) =>
    .ok { st with currArgs := some (PyDict.set curr target v), tune := PyDict.set st.tune target vs }

/-- The iterators of a new loop (tune.py:872-875): the values different from the current one. -/
def newTunes (args : PyDict K (ArgVal V)) (curr : PyDict K V) :
    List K → PyDict K (List V) → Res (PyDict K (List V))
  | [], tune => .ok tune
  | k :: ks, tune =>
    match PyDict.get? args k with
    | some (.tune vals) =>
      newTunes args curr ks (PyDict.set tune k (vals.filter (fun v => PyDict.get? curr k ≠ some v)))
    | _ => .error .TypeError

/-- `_currArgs[target] = _bestArgs[target]` (tune.py:860). -/
def restoreBest (st : ConsSt K V P) (curr : PyDict K V) (key : K) : Res (PyDict K V) :=
  match PyDict.get? st.bestArgs key with
  | none => .error .KeyError
  | some v => .ok (PyDict.set curr key v)

/-- The `except StopIteration` branch (tune.py:858-876); `key` is the exhausted argument. -/
def exhausted (args : PyDict K (ArgVal V)) (loops : Nat) (st : ConsSt K V P) (ord : List K)
    (curr : PyDict K V) (key : K) : Res (ConsSt K V P) :=
  match ord[st.target + 1]? with
  | some next => do                                               -- 859-863
    let curr ← restoreBest st curr key
    takeNext { st with target := st.target + 1, currArgs := some curr } curr next
  | none =>
    if st.currentLoop + 1 > loops then .error .StopIteration      -- 865-866
    else match ord with                                           -- 867-876
      | [] => .error .IndexError
      | first :: _ => do
        let tune ← newTunes args st.bestArgs ord st.tune
        takeNext { st with currentLoop := st.currentLoop + 1, target := 0, tune := tune,
                           currArgs := some st.bestArgs } st.bestArgs first

/-- The part of `Consecutive.__next__` that determines the arguments (tune.py:832-876). -/
def consAdvance (args : PyDict K (ArgVal V)) (loops : Nat) (st : ConsSt K V P) : Res (ConsSt K V P) :=
  if st.currentLoop > loops then .error .StopIteration
  else match st.currArgs with
  | none => do
    let (curr, tune, ord) ← consInit st.order args [] [] []
    return { st with currArgs := some curr, tune := tune, order := some (st.order.getD ord) }
  | some curr =>
    match st.order.getD [] with
    | [] => .error .StopIteration
    | o :: os =>
      match (o :: os)[st.target]? with
      | none => .error .IndexError
      | some key =>
        match PyDict.get? st.tune key with
        | some [] => exhausted args loops st (o :: os) curr key
        | _ => takeNext st curr key

/-- Recording of a tried combination (tune.py:881-886). -/
def consRecord (isBest : P → P → Bool) (perf : PyDict K V → P) (st : ConsSt K V P)
    (a : PyDict K V) : ConsSt K V P :=
  let better := match st.bestPerformance with
    | none => true
    | some q => isBest (perf a) q
  { st with
    tried := a :: st.tried
    bestPerformance := if better then some (perf a) else st.bestPerformance
    bestArgs := if better then a else st.bestArgs }

/-- `validateAll` / iterating to the end (tune.py:716-728, 831-887), as a finite execution: the
combinations validated, in order, and the exception that ended the iteration (`StopIteration` for a
regular end).  A combination already tried is skipped (877-879). -/
inductive ConsRuns (args : PyDict K (ArgVal V)) (loops : Nat) (isBest : P → P → Bool)
    (perf : PyDict K V → P) : ConsSt K V P → List (PyDict K V) → Err → Prop
  | done {st e} : consAdvance args loops st = .error e → ConsRuns args loops isBest perf st [] e
  | skip {st st' a vs e} : consAdvance args loops st = .ok st' → st'.currArgs = some a → a ∈ st'.tried →
      ConsRuns args loops isBest perf st' vs e → ConsRuns args loops isBest perf st vs e
  | visit {st st' a vs e} : consAdvance args loops st = .ok st' → st'.currArgs = some a → a ∉ st'.tried →
      ConsRuns args loops isBest perf (consRecord isBest perf st' a) vs e →
      ConsRuns args loops isBest perf st (a :: vs) e

/-- A new selector (tune.py:821-829). -/
def consStart (order : Option (List K)) : ConsSt K V P := ⟨order, 1, [], 0, none, [], none, []⟩

end Consecutive

end Nimble
