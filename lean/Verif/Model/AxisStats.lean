import Verif.Model.Calculate
import Verif.Model.Group

/-!
# Statistics of points and features (axis.py:899-928, 1572-1668, _utility.py:42-46, 596-637)
-/

namespace Nimble
namespace AxisStats
variable {V W K : Type} [DecidableEq K]

/-- The functions of `nimble.calculate` which are used. -/
inductive Stat where
  | maximum | minimum | mean | median | mode | sum | variance | uniqueCount
  | proportionMissing | proportionZero | quartiles | medianAbsoluteDeviation
  /-- `standardDeviation` with `sample` true or false -/
  | standardDeviation (sample : Bool)
  deriving DecidableEq

/-- `acceptedStats` (_utility.py:42-46). -/
def acceptedStats : List String :=
  ["max", "mean", "median", "min", "unique count", "proportion missing", "proportion zero",
    "standard deviation", "std", "population std", "population standard deviation", "sample std",
    "sample standard deviation", "count", "mode", "sum", "variance", "median absolute deviation",
    "quartiles"]

/-- `cleanKeywordInput` (_dataHelpers.py:193-202); case and whitespace of ASCII only. -/
def clean (s : String) : String :=
  String.ofList ((s.toList.map Char.toLower).filter (fun c => !c.isWhitespace))

/-- `validateInputString(string, acceptedStats, _)` for a string (_dataHelpers.py:204-224). -/
def validateInput (s : String) : Res String :=
  if clean s ∈ acceptedStats.map clean then .ok (clean s) else .error .InvalidArgumentValue

/-- `_getStatsFunction` (_utility.py:596-637). -/
def statFunction (name : String) : Res Stat :=
  if name = "max" then .ok .maximum
  else if name = "min" then .ok .minimum
  else if name = "mean" then .ok .mean
  else if name = "median" then .ok .median
  else if name = "mode" then .ok .mode
  else if name = "sum" then .ok .sum
  else if name = "variance" then .ok .variance
  else if name = "uniquecount" then .ok .uniqueCount
  else if name = "proportionmissing" then .ok .proportionMissing
  else if name = "proportionzero" then .ok .proportionZero
  else if name = "quartiles" then .ok .quartiles
  else if name = "medianabsolutedeviation" then .ok .medianAbsoluteDeviation
  else if name ∈ ["std", "standarddeviation", "samplestd", "samplestandarddeviation"] then
    .ok (.standardDeviation true)
  else if name ∈ ["populationstd", "populationstandarddeviation"] then .ok (.standardDeviation false)
  else .error .ValueError

/-- The names of the results and their positions (axis.py:916-920). -/
def resultNames (name : String) : List (Option String) :=
  if name = "quartiles" then [some "quartile1", some "quartile2", some "quartile3"] else [some name]

/-- `oldNames` (axis.py:916, 919). -/
def resultIdents (name : String) : List Ident :=
  if name = "quartiles" then [.int 0, .int 1, .int 2] else [.int 0]

/-- The result of a setter as the new object. -/
def setNamesOn (r : Obj W) (ax : Ax) (names : List (Option String)) : Res (Obj W) :=
  ((r.axis ax).setNames (.list names)).map (r.setAxis ax)

/-- `setNames(names, oldIdentifiers=…)` as the new object. -/
def setNamesAt (r : Obj W) (ax : Ax) (names : List (Option String)) (old : List Ident) : Res (Obj W) :=
  match (r.axis ax).setNamesPartial names old with
  | (a, .ok ()) => .ok (r.setAxis ax a)
  | (_, .error e) => .error e

/-- What `_calculate` gets from the function: a number or a sequence of numbers without names. -/
def statOut (fn : Stat → AxView V → Res (List W)) (s : Stat) (v : AxView V) : Res (Obj.CalcOut W) :=
  (fn s v).map (fun l => ⟨l, none⟩)

/-- `_statisticsBackend` (axis.py:914-928); the two setters are for different axes. -/
def statisticsBackend (fn : Stat → AxView V → Res (List W)) (o : Obj V) (ax : Ax) (name : String) (s : Stat) :
    Res (Obj W) := do
  let ret ← Obj.calculate (statOut fn s) o ax none
  let ret ← setNamesOn ret ax (o.axis ax).getNames
  setNamesAt ret ax.off (resultNames name) (resultIdents name)

/-- `points.statistics(name)`, `features.statistics(name)` (axis.py:899-906). -/
def statistics (fn : Stat → AxView V → Res (List W)) (o : Obj V) (ax : Ax) (name : String) : Res (Obj W) := do
  let clean ← validateInput name
  let s ← statFunction clean
  statisticsBackend fn o ax clean s

/-- The loop over the groups (axis.py:909-911). -/
def groupStats (fn : Stat → AxView V → Res (List W)) (name : String) (s : Stat) :
    PyDict (List K) (Obj V) → Res (PyDict (List K) (Obj W))
  | [] => .ok []
  | (k, g) :: rest => do
    let r ← statisticsBackend fn g .feature name s
    let rs ← groupStats fn name s rest
    return (k, r) :: rs

/-- `features.statistics(name, groupByFeature=by)` (axis.py:899-912). -/
def statisticsBy (fn : Stat → AxView V → Res (List W)) (samp : List Nat → Nat → List Nat)
    (prettyKey : V → Res K) (o : Obj V) (name : String) (by' : GroupBy) : Res (PyDict (List K) (Obj W)) := do
  let clean ← validateInput name
  let s ← statFunction clean
  let groups ← o.groupByFeature samp prettyKey by'
  groupStats fn clean s groups

/-- `groupByFeature(by, calculate=name)` (base.py:1425-1447). -/
def groupByCalculate (fn : Stat → AxView V → Res (List W)) (samp : List Nat → Nat → List Nat)
    (prettyKey : V → Res K) (o : Obj V) (name : String) (by' : GroupBy) : Res (PyDict (List K) (Obj W)) := do
  let groups ← o.groupByFeature samp prettyKey by'
  let clean ← validateInput name
  let s ← statFunction clean
  groupStats fn clean s groups

/-- The methods `max`, `mean`, … with the name and the function they pass on (axis.py:1581-1668). -/
def methods : List (String × String × Stat) :=
  [("max", "max", .maximum), ("mean", "mean", .mean), ("median", "median", .median), ("min", "min", .minimum),
    ("uniqueCount", "uniquecount", .uniqueCount),
    ("proportionMissing", "proportionmissing", .proportionMissing),
    ("proportionZero", "proportionzero", .proportionZero),
    ("standardDeviation", "standarddeviation", .standardDeviation true),
    ("populationStandardDeviation", "populationstandarddeviation", .standardDeviation false),
    ("mode", "mode", .mode), ("sum", "sum", .sum), ("variance", "variance", .variance),
    ("medianAbsoluteDeviation", "medianabsolutedeviation", .medianAbsoluteDeviation),
    ("quartiles", "quartiles", .quartiles)]

/-- A method of the list (axis.py:1572-1575). -/
def method (fn : Stat → AxView V → Res (List W)) (o : Obj V) (ax : Ax) (m : String × String × Stat) :
    Res (Obj W) := statisticsBackend fn o ax m.2.1 m.2.2

end AxisStats
end Nimble
