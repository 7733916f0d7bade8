import Verif.Py

/-!
# From the name of a learner to its package and learner (core/_learnHelpers.py:40-91, 544-571, core/learn.py:138-164)

An interface is known by its canonical name and its other names.  Letters are those of ASCII.  Whether an
interface can be instantiated does not change.  Not modelled: the options set in the configuration when an
interface becomes available, and the text of the exceptions.
-/

namespace Nimble
namespace Lookup

/-- An interface: `getCanonicalName()` and the names `isAlias` knows besides it. -/
structure Iface where
  canonical : String
  aliases : List String
  deriving DecidableEq

/-- `str.lower`. -/
def lower (s : String) : String := String.ofList (s.toList.map Char.toLower)

/-- `isAlias` (universal_interface.py:112-126, keras_interface.py:207-210, scikit_learn_interface.py:452-455). -/
def isAlias (i : Iface) (name : String) : Bool :=
  if lower name ∈ i.aliases then true else decide (lower name = lower i.canonical)

/-- What does not change: `nimble` and `custom`, which are available from the start (_collect_interfaces.py:75-85),
the predefined interfaces, those which can be instantiated, and the learners of each. -/
structure World where
  builtin : List Iface
  predefined : List Iface
  init : Iface → Bool
  learners : Iface → List String

/-- `nimble.core.interfaces.available`. -/
abbrev Available := PyDict String Iface

/-- An attempt to instantiate a predefined interface (_learnHelpers.py:59-71): `PackageException` if it
fails, by itself or from `provideInitExceptionInfo`. -/
def instantiate (w : World) (st : Available) (i : Iface) : Available × Res Iface :=
  if w.init i then (PyDict.set st i.canonical i, .ok i) else (st, .error .PackageException)

/-- The loop over the predefined interfaces (_learnHelpers.py:57-75). -/
def findPredefined (w : World) (st : Available) (package : String) : Available × Res Iface :=
  match w.predefined.find? (fun i => isAlias i package) with
  | some i => instantiate w st i
  | none => (st, .error .InvalidArgumentValue)

/-- The loop over the available interfaces (_learnHelpers.py:54-56). -/
def findAvailable (w : World) (st : Available) (package : String) : Available × Res Iface :=
  match (st.map Prod.snd).find? (fun i => isAlias i package) with
  | some i => (st, .ok i)
  | none => findPredefined w st package

/-- `findBestInterface(package)` (_learnHelpers.py:40-75). -/
def findBest (w : World) (st : Available) (package : String) : Available × Res Iface :=
  match PyDict.get? st package with
  | some i => (st, .ok i)
  | none => findAvailable w st package

/-- `learnerName.split('.', 1)` with a dot in it. -/
def splitName (name : String) : String × String :=
  (String.ofList (name.toList.takeWhile (fun c => c ≠ '.')),
    String.ofList ((name.toList.dropWhile (fun c => c ≠ '.')).drop 1))

/-- A pair of results. -/
def withName (r : Available × Res Iface) (name : String) : Available × Res (Iface × String) :=
  (r.1, r.2.map (fun i => (i, name)))

/-- `_unpackLearnerName(learnerName)` for a string (_learnHelpers.py:549-557, 569-571). -/
def unpack (w : World) (st : Available) (learnerName : String) : Available × Res (Iface × String) :=
  if '.' ∉ learnerName.toList then (st, .error .InvalidArgumentValue)
  else withName (findBest w st (splitName learnerName).1) (splitName learnerName).2

/-- A class: the pieces of `__module__` between the dots, `__name__`, and whether it is a `CustomLearner`. -/
structure PyClass where
  first : String
  further : List String
  name : String
  custom : Bool

/-- The package of a class (_learnHelpers.py:559-566). -/
def classPackage (c : PyClass) : String :=
  let package := if c.first = "tensorflow" ∧ "keras" ∈ c.first :: c.further then "keras" else c.first
  if c.custom = true ∧ package ≠ "nimble" then "custom" else package

/-- `_unpackLearnerName(learnerName)` for a class (_learnHelpers.py:558-571), without the registration. -/
def unpackClass (w : World) (st : Available) (c : PyClass) : Available × Res (Iface × String) :=
  withName (findBest w st (classPackage c)) c.name

/-- One round of the loop of `initAvailablePredefinedInterfaces` (_learnHelpers.py:81-91). -/
def initOne (w : World) (st : Available) (i : Iface) : Available :=
  if PyDict.has st i.canonical then st else if w.init i then PyDict.set st i.canonical i else st

/-- `initAvailablePredefinedInterfaces()` (_learnHelpers.py:76-91). -/
def initAll (w : World) (st : Available) : Available := w.predefined.foldl (initOne w) st

/-- `learnerNames()` (learn.py:144-150). -/
def learnerNames (w : World) (st : Available) : Available × List String :=
  (initAll w st, (initAll w st).flatMap (fun p => (w.learners p.2).map (fun l => p.1 ++ "." ++ l)))

/-- `learnerNames(package)` (learn.py:151-156). -/
def learnerNamesOf (w : World) (st : Available) (package : String) : Available × Res (List String) :=
  ((findBest w st package).1, (findBest w st package).2.map w.learners)

/-- The interfaces after the import (_collect_interfaces.py:74-87). -/
def start (w : World) : Available := PyDict.ofPairs (w.builtin.map (fun i => (i.canonical, i)))

/-- A call of the user which asks for an interface. -/
inductive Call where
  | byName (learnerName : String)
  | byClass (c : PyClass)
  | names
  | namesOf (package : String)

/-- The interfaces available after a call. -/
def after (w : World) (st : Available) : Call → Available
  | .byName s => (unpack w st s).1
  | .byClass c => (unpackClass w st c).1
  | .names => (learnerNames w st).1
  | .namesOf p => (learnerNamesOf w st p).1

/-- The interfaces available after some calls. -/
def run (w : World) (calls : List Call) : Available := calls.foldl (after w) (start w)

end Lookup
end Nimble
