import Verif.Model.Obj
import Mathlib.Data.List.Dedup

/-!
# `features.report` (features.py:2330-2458)

The statistics themselves are parameters (`Calc`); what the user sees of a report is modelled: which feature each row
belongs to, which statistic each column holds, and the names.
-/

namespace Nimble
namespace FeatureReport

variable {V : Type}

/-- The functions the report calls: `getattr(nimble.calculate, stat)`, `nimble.calculate.quartiles`; the number for an
index, nan, and the text for a dtype. -/
structure Calc (V : Type) where
  stat : String → List V → Res V
  quartiles : List V → Res (V × V × V)
  num : Nat → V
  nan : V
  text : String → V

/-- `allow` (features.py:2374-2375). -/
def allow : List String :=
  ["mean", "mode", "minimum", "Q1", "median", "Q3", "maximum", "uniqueCount", "count", "standardDeviation"]

/-- The argument `basicStatistics`: True, False/None, or a list. -/
inductive Basic where
  | yes | no
  | list (l : List String)

/-- Which statistics (features.py:2376-2386); an empty list is falsy. -/
def stats : Basic → Res (List String)
  | .yes => .ok allow
  | .no => .ok []
  | .list l => if l.any (fun s => decide (s ∉ allow)) then .error .InvalidArgumentValue else .ok l

/-- An extra function: its `__name__` and what it does. -/
structure Extra (V : Type) where
  name : String
  fn : List V → Res V

/-- `quartiles` (features.py:2411): the place of a quartile. -/
def quartilePos (s : String) : Option (Fin 3) :=
  if s = "Q1" then some 0 else if s = "median" then some 1 else if s = "Q3" then some 2 else none

/-- `quartileCalcs[k]`. -/
def pickQ (q : V × V × V) (k : Fin 3) : V := if k = 0 then q.1 else if k = 1 then q.2.1 else q.2.2

/-- The body of `try` (features.py:2417-2423): the remembered quartiles and the value. -/
def tryStat (C : Calc V) (ft : List V) (cache : Option (V × V × V)) (s : String) : Res (Option (V × V × V) × V) :=
  match quartilePos s with
  | some k =>
    match cache with
    | some q => .ok (some q, pickQ q k)
    | none => (C.quartiles ft).map (fun q => (some q, pickQ q k))
  | none => (C.stat s ft).map (fun v => (cache, v))

/-- Whether an exception is a `ValueError` (exceptions.py:47,68,94: these classes derive from it). -/
def isValueError : Err → Bool
  | .ValueError | .InvalidArgumentValue | .InvalidArgumentValueCombination | .FileFormatException => true
  | _ => false

/-- `except ValueError: row.append(np.nan)` (features.py:2424-2425). -/
def catchStat (C : Calc V) (cache : Option (V × V × V)) :
    Res (Option (V × V × V) × V) → Res (Option (V × V × V) × V)
  | .error e => if isValueError e then .ok (cache, C.nan) else .error e
  | .ok r => .ok r

/-- The loop over the statistics (features.py:2414-2425). -/
def statCells (C : Calc V) (ft : List V) : Option (V × V × V) → List String → Res (List V)
  | _, [] => .ok []
  | cache, s :: ss => do
    let p ← catchStat C cache (tryStat C ft cache s)
    let rest ← statCells C ft p.1 ss
    return p.2 :: rest

/-- The loop over the extra functions (features.py:2427-2428). -/
def extraCells (ft : List V) : List (Extra V) → Res (List V)
  | [] => .ok []
  | f :: fs => do
    let v ← f.fn ft
    let rest ← extraCells ft fs
    return v :: rest

/-- One row (features.py:2413-2428). -/
def row (C : Calc V) (ss : List String) (fs : List (Extra V)) (i : Nat) (ft : List V) : Res (List V) := do
  let a ← statCells C ft none ss
  let b ← extraCells ft fs
  return C.num i :: (a ++ b)

/-- The loop over the features (features.py:2412-2429). -/
def rows (C : Calc V) (ss : List String) (fs : List (Extra V)) (o : Obj V) : List Nat → Res (List (List V))
  | [] => .ok []
  | i :: is => do
    let r ← row C ss fs i (o.vector .feature i)
    let rest ← rows C ss fs o is
    return r :: rest

/-- `Counter(fnames)` (features.py:2393). -/
def counter (names : List String) : PyDict String Nat :=
  names.foldl (fun d v => PyDict.set d v ((PyDict.get? d v).getD 0 + 1)) []

/-- `f'{val} ({diff})'` (features.py:2402). -/
def numbered (val : String) (diff : Nat) : String := val ++ (" (" ++ (Nat.repr diff ++ ")"))

/-- The loop making the names unique (features.py:2396-2405). -/
def editLoop (cnt : PyDict String Nat) : PyDict String Nat → List String → List String
  | _, [] => []
  | rem, v :: vs =>
    if 1 < (PyDict.get? cnt v).getD 0 then
      numbered v ((PyDict.get? cnt v).getD 0 - (PyDict.get? rem v).getD 0) ::
        editLoop cnt (PyDict.set rem v ((PyDict.get? rem v).getD 0 - 1)) vs
    else v :: editLoop cnt rem vs

/-- The feature names of the report (features.py:2393-2406). -/
def editNames (names : List String) : List String :=
  if names.dedup.length ≠ names.length then editLoop (counter names) (counter names) names else names

/-- The names before they are made unique (features.py:2388-2391). -/
def rawNames (ss : List String) (fs : List (Extra V)) : List String := "index" :: (ss ++ fs.map Extra.name)

/-- `report.features.append(featureTypes)` (features.py:2448-2454): a column `dataType`, unless there is one. -/
def withTypes (C : Calc V) (types : List String) (rows : List (List V)) (names : List String) :
    List (List V) × List String :=
  if "dataType" ∈ names then (rows, names)
  else (rows.zipWith (fun r t => r ++ [C.text t]) types, names ++ ["dataType"])

/-- `features.report(basicStatistics, extraStatisticFunctions, dtypes)` (features.py:2330-2458); `types` are the dtypes
of the features (`some` if `dtypes=True`).  The report is built by `nimble.data(results, pnames, fnames)`; without
features there are no rows, hence no columns for the names.  (The column `dataType` is appended to the report; here
the report is built with it, which gives the same object.) -/
def report (C : Calc V) (o : Obj V) (basic : Basic) (fs : List (Extra V)) (types : Option (List String)) :
    Res (Obj V) := do
  let ss ← stats basic
  let rs ← rows C ss fs o (List.range o.fts.len)
  let base ← Obj.makeFrom rs 0 o.fts.getNamesNoGen (some ((editNames (rawNames ss fs)).map some))
  match types with
  | none => return base
  | some ts =>
    let p := withTypes C ts rs (editNames (rawNames ss fs))
    Obj.makeFrom p.1 0 o.fts.getNamesNoGen (some (p.2.map some))

end FeatureReport
end Nimble
