import Verif.Model.Names

/-!
# Custom learner classes: validation of the class, of the arguments, and the calls made with them
(`nimble/core/interfaces/custom_learner.py:97-129, 138-184, 249-416`,
`nimble/core/interfaces/universal_interface.py:341-424, 451-527`, `nimble/_utility.py:58-91`)

Only names matter here: arguments are the keys of a dictionary (no duplicates). Parameters `*args` are left out.
-/

namespace Nimble.Custom

/-- A parameter with its default value, if any. -/
structure Param where
  name : String
  dflt : Option String
  deriving DecidableEq

/-- A method: the parameters before `*`, those after it, and whether it has `**kwargs`. -/
structure Sig where
  pos : List Param
  kwOnly : List Param
  varKw : Bool
  deriving DecidableEq

/-- The names of the parameters before `*`. -/
def Sig.names (s : Sig) : List String := s.pos.map Param.name

/-- A call with `p` positional arguments and the keywords `kws` (Python): TypeError unless every keyword is a
parameter not already given (twice), and every parameter without a default is given. -/
def Sig.call (s : Sig) (p : Nat) (kws : List String) : Res Unit :=
  if p ≤ s.pos.length ∧ kws.Nodup ∧
      (∀ k ∈ kws, k ∉ s.names.take p ∧ (k ∈ s.names.drop p ∨ k ∈ s.kwOnly.map Param.name ∨ s.varKw = true)) ∧
      (∀ q ∈ s.pos.drop p ++ s.kwOnly, q.dflt = none → q.name ∈ kws)
  then .ok () else .error .TypeError

/-- What `inspectArguments` sees of a method (_utility.py:58-91): parameters after `*` are left out. -/
def Sig.inspect (s : Sig) : List Param × Bool := (s.pos, s.varKw)

/-- A subclass of CustomLearner; `scores`, `hasTrain` and `hasInc` say what is overridden, `abstractLeft` that an
abstract method other than `train` is not. -/
structure Cls where
  learnerType : String
  train : Sig
  inc : Sig
  apply : Sig
  scores : Option Sig
  init : Sig
  hasTrain : Bool
  hasInc : Bool
  abstractLeft : Bool
  deriving DecidableEq

/-- The accepted learner types (custom_learner.py:350-351). -/
def learnerTypes : List String := ["regression", "classification", "cluster", "transformation", "undefined"]

/-- `info[0][0] != 'self' or info[0][1] != …` (custom_learner.py:361-377): an index outside the list raises
IndexError. -/
def startsWith : List String → List String → Res Unit
  | _, [] => .ok ()
  | [], _ :: _ => .error .IndexError
  | n :: ns, e :: es => if n ≠ e then .error .TypeError else startsWith ns es

/-- `getScores` must have the signature of `apply` (custom_learner.py:400-407). -/
def scoresCheck (c : Cls) : Res Unit :=
  match c.scores with
  | none => .ok ()
  | some s => if s.inspect ≠ c.apply.inspect then .error .TypeError else .ok ()

/-- `len(initInfo[0]) > 1 or initInfo[0][0] != 'self'` (custom_learner.py:410-414). -/
def initCheck (c : Cls) : Res Unit :=
  if 1 < c.init.pos.length then .error .TypeError
  else match c.init.names with
    | [] => .error .IndexError
    | n :: _ => if n ≠ "self" then .error .TypeError else .ok ()

/-- `check.train = check.incrementalTrain` (custom_learner.py:388-397). -/
def fillTrain (c : Cls) : Res Cls :=
  if c.hasTrain then .ok c
  else if c.hasInc then .ok { c with train := c.inc }
  else .error .TypeError

/-- `check()` (custom_learner.py:418): TypeError for an abstract class, and the call itself. -/
def instantiate (c : Cls) : Res Unit :=
  if c.abstractLeft then .error .TypeError else c.init.call 1 []

/-- `validateCustomLearnerSubclass` (custom_learner.py:344-418); the class as it is left. -/
def validate (c : Cls) : Res Cls := do
  if c.learnerType ∉ learnerTypes then .error .TypeError
  else do
    startsWith c.train.names ["self", "trainX", "trainY"]
    startsWith c.inc.names ["self", "trainX", "trainY"]
    startsWith c.apply.names ["self", "testX"]
    let c' ← fillTrain c
    scoresCheck c'
    initCheck c'
    instantiate c'
    return c'

/-- `_ignoreNames` (custom_learner.py:43). -/
def ignored : List String := ["trainX", "trainY", "testX"]

/-- `getLearnerParameterNames` (custom_learner.py:97-108, 249-254, 268-274, 288-294). -/
def params (c : Cls) : List String :=
  (c.train.names.drop 2 ++ c.apply.names.drop 1).filter (fun n => n ∉ ignored)

/-- `getLearnerDefaultValues` (custom_learner.py:113-124, 256-266, 276-286, 296-311): the names with a default. -/
def defaults (c : Cls) : List String :=
  ((c.train.pos ++ c.apply.pos).filter (fun p => p.dflt.isSome)).map Param.name

/-- The loop of `_argumentValueValidation` (universal_interface.py:365-401): what is left of the arguments. -/
def missingLoop (dflts : List String) : List String → List String → Res (List String)
  | [], check => .ok check
  | p :: ps, check =>
    if p ∈ check then missingLoop dflts ps (check.erase p)
    else if p ∉ dflts then .error .InvalidArgumentValue
    else missingLoop dflts ps check

/-- `_argumentValueValidation` (universal_interface.py:360-424). -/
def validateArgs (ps dflts args : List String) : Res Unit := do
  let rest ← missingLoop dflts ps args
  if rest = [] then .ok () else .error .InvalidArgumentValue

/-- `train` with arguments (universal_interface.py:322-337, custom_learner.py:153-164):
`ret.train(trainX, trainY, **arguments)`. -/
def trainCall (c : Cls) (args : List String) : Res Unit := do
  validateArgs (params c) (defaults c) args
  c.train.call 3 args

/-- `_getMethodArguments` (universal_interface.py:501-527). -/
def methodArgs (names new stored : List String) : Res (List String) :=
  if ∀ a ∈ new, a ∈ names then .ok (new ++ names.filter (fun n => n ∉ new ∧ n ∈ stored))
  else .error .InvalidArgumentValue

/-- `apply` of a learner trained with the arguments `stored` (custom_learner.py:179-184). -/
def applyCall (c : Cls) (new stored : List String) : Res Unit := do
  let kws ← methodArgs (c.apply.names.drop 2) new stored
  c.apply.call 2 kws

/-- `getScores` (custom_learner.py:126-129): no arguments are passed. -/
def scoresCall (c : Cls) : Res Unit :=
  match c.scores with
  | none => .error .ImproperObjectAction
  | some s => s.call 2 []

/-- `incrementalTrain` (universal_interface.py:1513-1524, custom_learner.py:166-177): all arguments are passed. -/
def incCall (c : Cls) (stored new : List String) : Res Unit :=
  c.inc.call 3 (stored ++ new.filter (fun a => a ∉ stored))

/-- One set of parameters with its defaults. -/
structure ParamSet where
  names : List String
  dflts : List String
  deriving DecidableEq

/-- All parameters without a default are given (universal_interface.py:467-475). -/
def ParamSet.fits (args : List String) (s : ParamSet) : Bool :=
  s.names.all (fun p => decide (p ∈ args) || decide (p ∈ s.dflts))

/-- The loop of `_chooseBestParameterSet` (universal_interface.py:463-479): `bestParams` is never changed, so every
set that fits is at least as long. -/
def chooseLoop (args : List String) : List ParamSet → Nat → Option Nat → Option Nat
  | [], _, best => best
  | s :: rest, i, best => chooseLoop args rest (i + 1) (if s.fits args then some i else best)

/-- `_chooseBestParameterSet` (universal_interface.py:451-499). -/
def chooseBest (sets : List ParamSet) (args : List String) : Res Nat :=
  if sets.length = 1 then .ok 0
  else match chooseLoop args sets 0 none with
    | none => .error .InvalidArgumentValue
    | some i => .ok i

/-- `_validateArgumentValues` (universal_interface.py:341-357). -/
def validateSets (sets : List ParamSet) (args : List String) : Res Unit := do
  let i ← chooseBest sets args
  match sets[i]? with
  | none => .error .IndexError
  | some s => validateArgs s.names s.dflts args

end Nimble.Custom
