import Verif.Py

/-!
# The arguments written to the log (session_logger.py:406-446, 1180-1278, 1332-1358)
-/

namespace Nimble
namespace LogArgs

/-- What the logger needs to know about argument values. -/
structure ArgOps (A : Type) where
  /-- the truth value of `arg == default`, which can raise -/
  eq : A → A → Res Bool
  /-- `callable(arg)` -/
  isCallable : A → Bool
  /-- `_extractFunctionString(arg)` (session_logger.py:1218-1229) -/
  funcString : A → String
  /-- for a nimble object its name, if it has one, and its `logID` -/
  base : A → Option (Option String × String)
  /-- `str(arg)` -/
  str : A → String

section
variable {A : Type}

/-- `nameArgMap` (session_logger.py:1195-1198): the arguments by name; `names` is without `self` (1194).
Positional arguments beyond the names are left out, as by `zip`. -/
def nameArgMap (names : List String) (args : List A) (kwargs : PyDict String A) : PyDict String A :=
  kwargs.foldl (fun d p => PyDict.set d p.1 p.2)
    ((names.zip args).foldl (fun d p => PyDict.set d p.1 p.2) [])

/-- `defaultDict` (session_logger.py:1200-1205): the defaults belong to the last names. -/
def defaultDict (names : List String) (defaults : List A) : PyDict String A :=
  ((names.drop (names.length - defaults.length)).zip defaults).foldl
    (fun d p => PyDict.set d p.1 p.2) []

/-- Whether an argument is left out because it is the default (session_logger.py:1209-1214). -/
def isDefault (ops : ArgOps A) (defs : PyDict String A) (name : String) (arg : A) : Res Bool :=
  match PyDict.get? defs name with
  | none => .ok false
  | some d =>
    match ops.eq arg d with
    | .ok b => .ok b
    | .error .TypeError => .ok false
    | .error e => .error e

/-- The text for an argument and the log ids to remember (session_logger.py:1215-1224). -/
def argText (ops : ArgOps A) (arg : A) : String × List String :=
  if ops.isCallable arg then (ops.funcString arg, [])
  else
    match ops.base arg with
    | some (some n, id) => (n, [id])
    | some (none, id) => (id, [])
    | none => (ops.str arg, [])

/-- The loop (session_logger.py:1207-1226). -/
def buildLoop (ops : ArgOps A) (defs : PyDict String A) :
    List (String × A) → PyDict String String × List String → Res (PyDict String String × List String)
  | [], acc => .ok acc
  | p :: ps, acc =>
    match isDefault ops defs p.1 p.2 with
    | .error e => .error e
    | .ok true => buildLoop ops defs ps acc
    | .ok false =>
      buildLoop ops defs ps (PyDict.set acc.1 p.1 (argText ops p.2).1, acc.2 ++ (argText ops p.2).2)

/-- `_buildArgDict(func, logIDs, *args, **kwargs)` (session_logger.py:1180-1228) for a function with the
given argument names (without `self`) and defaults; the arguments to write and the log ids. -/
def buildArgDict (ops : ArgOps A) (names : List String) (defaults : List A) (args : List A)
    (kwargs : PyDict String A) : Res (PyDict String String × List String) :=
  buildLoop ops (defaultDict names defaults) (nameArgMap names args kwargs) ([], [])

/-- `prepLog(method)` (_dataHelpers.py:1197-1208) with `logPrep` (session_logger.py:406-446): the object
after the call, the entries of the log, and the outcome.  `run` is the method.  What is written about
the object itself is not modelled. -/
def prepLog {S : Type} (ops : ArgOps A) (names : List String) (defaults : List A) (useLog : Bool)
    (run : S → S × Res Unit) (args : List A) (kwargs : PyDict String A) (s : S)
    (log : List (PyDict String String)) : S × List (PyDict String String) × Res Unit :=
  match run s with
  | (s', .error e) => (s', log, .error e)
  | (s', .ok ()) =>
    if useLog then
      match buildArgDict ops names defaults args kwargs with
      | .error e => (s', log, .error e)
      | .ok d => (s', log ++ [d.1], .ok ())
    else (s', log, .ok ())

end

/-! ## The source text of a lambda -/

def isOpener (c : Char) : Bool := c == '(' || c == '[' || c == '{'
def isCloser (c : Char) : Bool := c == ')' || c == ']' || c == '}'

/-- The loop of `_lambdaFunctionString` (session_logger.py:1247-1275) from the state (`isOpen`,
`afterColon`); the text returned. -/
def lambdaScan : Int → Bool → List Char → List Char
  | _, _, [] => []
  | isOpen, after, c :: cs =>
    if isOpener c then
      if isOpen + 1 = 0 then [] else c :: lambdaScan (isOpen + 1) after cs
    else if isCloser c then
      if isOpen - 1 = 0 then [] else c :: lambdaScan (isOpen - 1) after cs
    else if c = ':' then
      if isOpen = 0 then [] else c :: lambdaScan isOpen true cs
    else if c = ',' ∧ after = true ∧ isOpen = 1 then []
    else if isOpen = 0 then [] else c :: lambdaScan isOpen after cs

/-- `_lambdaFunctionString` for the part of the source line from `lambda` on (session_logger.py:1244-1275). -/
def lambdaString (line : List Char) : List Char := lambdaScan 1 false line

/-! ## Arguments which can be read back -/

/-- Python values as far as `literal_eval(repr(value))` is concerned. -/
inductive LVal where
  /-- a constant; `repr` of it evaluates -/
  | const (s : String)
  /-- anything whose `repr` does not evaluate (a function, an object, nan) -/
  | other (repr : String)
  | tup (l : List LVal)
  | lst (l : List LVal)
  | dict (l : List (LVal × LVal))

mutual
/-- `literal_eval(repr(value))` does not raise ValueError or SyntaxError. -/
def evals : LVal → Bool
  | .const _ => true
  | .other _ => false
  | .tup l => evalsL l
  | .lst l => evalsL l
  | .dict l => evalsD l
def evalsL : List LVal → Bool
  | [] => true
  | v :: l => evals v && evalsL l
def evalsD : List (LVal × LVal) → Bool
  | [] => true
  | (k, v) :: l => evals k && evals v && evalsD l
end

/-- The value, or its `repr` if that does not evaluate (session_logger.py:1341-1346, 1351-1356); `rep` is
`repr`, whose result is a string and evaluates. -/
def orRepr (rep : LVal → String) (v : LVal) : LVal := if evals v then v else .const (rep v)

mutual
/-- `literalOnlyArguments(arguments)` for a dict or a list (session_logger.py:1332-1358), and the
value itself otherwise (1339-1340, 1349-1350). -/
def literalOnly (rep : LVal → String) : LVal → LVal
  | .lst l => .lst (literalOnlyL rep l)
  | .dict l => .dict (literalOnlyD rep l)
  | .const s => .const s
  | .other s => .other s
  | .tup l => .tup l
def literalOnlyL (rep : LVal → String) : List LVal → List LVal
  | [] => []
  | v :: l => orRepr rep (literalOnly rep v) :: literalOnlyL rep l
def literalOnlyD (rep : LVal → String) : List (LVal × LVal) → List (LVal × LVal)
  | [] => []
  | (k, v) :: l => (k, orRepr rep (literalOnly rep v)) :: literalOnlyD rep l
end

end LogArgs
end Nimble
