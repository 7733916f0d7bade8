import Verif.Model.Tuning

/-!
# A `Tuning` object and its results (`nimble/core/tune.py:1652-1804`, `nimble/core/learn.py:806-822, 1018-1032`)

What the selector validates when the performance function is `f`, and what the validations return, is a
parameter (`Session`): the arguments, whether they are recorded, the performance, and how the selection ends.
-/

namespace Nimble

variable {F A P : Type}

/-- One tuning: for each performance function the successful validations, in order, and the end of
`selector.validateAll()`. -/
structure Session (F A P : Type) where
  calls : F → List (A × Bool × P)
  ending : F → Res Unit

/-- The attributes of a `Tuning` (tune.py:1660, 1719-1722). -/
structure TuningObj (F A P : Type) where
  perf : Option F
  validator : Option (VSt A P)
  sorted : Option (List (P × A))

namespace TuningObj

/-- A new object (tune.py:1652-1722). -/
def new (perf : Option F) : TuningObj F A P := ⟨perf, none, none⟩

/-- `sorted(zip(results, arguments), key=itemgetter(0), reverse=highestIsBest)` (tune.py:1746-1752): a stable
sort also with `reverse=True`. -/
def ranking (isBest : P → P → Bool) (v : VSt A P) : List (P × A) :=
  (List.zip v.results v.arguments).mergeSort (fun a b => !isBest b.1 a.1)

/-- The validator after the tuning (tune.py:1739-1744). -/
def validated (isBest : P → P → Bool) (calls : List (A × Bool × P)) : VSt A P :=
  VSt.runAll isBest (calls.map (fun c => (c.1, c.2.1, .ok c.2.2)))

/-- `tune` once the function is known (tune.py:1739-1752). -/
def tuneWith (isBest : F → P → P → Bool) (s : Session F A P) (t : TuningObj F A P) (f : F) :
    TuningObj F A P × Res Unit :=
  match s.ending f with
  | .error e => (⟨some f, some (validated (isBest f) (s.calls f)), t.sorted⟩, .error e)
  | .ok _ => (⟨some f, some (validated (isBest f) (s.calls f)),
      some (ranking (isBest f) (validated (isBest f) (s.calls f)))⟩, .ok ())

/-- `tune` (tune.py:1724-1752). -/
def tune (isBest : F → P → P → Bool) (s : Session F A P) (t : TuningObj F A P) (performanceFunction : Option F) :
    TuningObj F A P × Res Unit :=
  match t.perf.or performanceFunction with
  | none => (t, .error .InvalidArgumentValue)
  | some f => tuneWith isBest s t f

/-- The tuning in `nimble.train` (learn.py:815-817). -/
def train (isBest : F → P → P → Bool) (s : Session F A P) (t : TuningObj F A P) : TuningObj F A P × Res Unit :=
  tune isBest s t none

/-- The tuning in `nimble.trainAndTest` (learn.py:1022-1032), with a Tuning object and arguments to tune. -/
def trainAndTest (isBest : F → P → P → Bool) (s : Session F A P) (t : TuningObj F A P) (g : F) :
    TuningObj F A P × Res Unit :=
  train isBest s { t with perf := t.perf.or (some g) }

/-- `bestResult` and `bestArguments` (tune.py:1757-1768); without a validator or without a recorded result
subscripting `None` raises. -/
def best (t : TuningObj F A P) : Option (P × A) := t.validator.bind VSt.best

/-- `allResults` (tune.py:1771-1778). -/
def allResults (t : TuningObj F A P) : Option (List P) := t.sorted.map (fun l => l.map Prod.fst)

/-- `allArguments` (tune.py:1781-1788). -/
def allArguments (t : TuningObj F A P) : Option (List A) := t.sorted.map (fun l => l.map Prod.snd)

/-- `_sortedResults` of a cross-validator (tune.py:1748-1752): every validation has appended its fold results to
`_deepResults` (tune.py:283, 329), recorded or not. -/
def crossRanking {D : Type} (isBest : P → P → Bool) (calls : List (A × Bool × P × D)) : List ((P × A) × D) :=
  (List.zip (List.zip (validated isBest (calls.map (fun c => (c.1, c.2.1, c.2.2.1)))).results
      (validated isBest (calls.map (fun c => (c.1, c.2.1, c.2.2.1)))).arguments)
    (calls.map (fun c => c.2.2.2))).mergeSort (fun a b => !isBest b.1.1 a.1.1)

/-- `deepResults` of a cross-validation (tune.py:1791-1802). -/
def deepResults {D : Type} (isBest : P → P → Bool) (calls : List (A × Bool × P × D)) : List D :=
  (crossRanking isBest calls).map Prod.snd

/-- Successive calls of `trainAndTest` with one Tuning object, whether they raise or not. -/
def runTests (isBest : F → P → P → Bool) (t : TuningObj F A P) : List (Session F A P × F) → TuningObj F A P
  | [] => t
  | c :: cs => runTests isBest (trainAndTest isBest c.1 t c.2).1 cs

end TuningObj

/-- The argument `validation` of `Tuning` (tune.py:1688-1694). -/
inductive ValidationArg where
  | float (p : Rat)
  | str (s : String)
  | other
  deriving DecidableEq

/-- `.lower().replace(" ", "").replace("-", "")` (tune.py:1664-1665, 1693-1694); `lower` for ASCII letters. -/
def normName (s : String) : String :=
  String.ofList ((s.toList.map Char.toLower).filter (fun c => c != ' ' && c != '-'))

/-- `Tuning._selectors` (tune.py:1643-1647). -/
def selectorNames : List String := ["bruteforce", "consecutive", "bayesian", "iterative", "storm"]

/-- `Tuning._validators` (tune.py:1648-1652). -/
def validatorNames : List String := ["crossvalidation", "leaveoneout", "leaveonegroupout", "data", "proportion"]

/-- `dataOnly` (tune.py:1672). -/
def dataOnlyNames : List String := ["bayesian", "iterative", "storm"]

/-- The name of the validation (tune.py:1688-1694). -/
def validationName : ValidationArg → String
  | .float _ => "proportion"
  | .str s => normName s
  | .other => ""

/-- The choice of selection and validation in `Tuning.__init__` (tune.py:1662-1706): the names of both, or the
error. `limits` says that one of maxIterations, timeout and threshold is not None. -/
def tuningChoice (selection : String) (validation : ValidationArg) (limits : Bool) : Res (String × String) :=
  if !selectorNames.contains (normName selection) then .error .InvalidArgumentValue
  else if dataOnlyNames.contains (normName selection) && !limits then .error .InvalidArgumentValueCombination
  else if dataOnlyNames.contains (normName selection) && validationName validation != "data" then
    .error .InvalidArgumentValueCombination
  else if !validatorNames.contains (validationName validation) then .error .InvalidArgumentValue
  else .ok (normName selection, validationName validation)

end Nimble
