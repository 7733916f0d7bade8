import Verif.Py

/-!
# Which learning calls are the user's (`nimble/core/_learnHelpers.py:686-705`)

The functions `train`, `trainAndApply`, `trainAndTest`, … and the methods `apply` and `test` of trained
learners are decorated with `trackEntry`; they check their arguments, and `train` logs, only when they
find themselves to be the entry point.
-/

namespace Nimble.EntryPoint

/-- `trackEntry.isEntryPoint`. -/
abbrev Flag := Option Bool

/-- A decorated call starts (_learnHelpers.py:692-695). -/
def enter : Flag → Flag
  | none => some true
  | some _ => some false

/-- A decorated call ends, normally or by an exception: `finally` (_learnHelpers.py:696-699). -/
def leave (_ : Flag) : Flag := none

/-- What happens, in time: call number `i` starts, or a call ends. -/
inductive Ev where
  | enter (i : Nat)
  | leave
  deriving DecidableEq, Repr

def step (f : Flag) : Ev → Flag
  | .enter _ => enter f
  | .leave => leave f

/-- The calls that find themselves to be entry points (`if trackEntry.isEntryPoint:` at the start of the
function body: learn.py:492, 632, 796, 989, 1196, 1361; universal_interface.py:1124, 1240). -/
def entries : Flag → List Ev → List Nat
  | _, [] => []
  | f, .enter i :: es =>
    (if enter f = some true then [i] else []) ++ entries (enter f) es
  | f, .leave :: es => entries (leave f) es

/-- A decorated call with the decorated calls it makes; `raises` if it ends by an exception (the
exception may come from any of them, or from itself). -/
inductive Call where
  | mk (id : Nat) (inner : List Call) (raises : Bool)

mutual
/-- The events of a call.  If an inner call raises, the outer call may go on (it caught the exception) or
raise too: either way it ends with `finally`. -/
def Call.events : Call → List Ev
  | .mk i inner _ => .enter i :: (eventsAll inner ++ [.leave])
def eventsAll : List Call → List Ev
  | [] => []
  | c :: cs => c.events ++ eventsAll cs
end

/-- `train` (learn.py:793-800, 833-836): whether it writes an entry to the log. -/
def trainLogs (isEntry : Bool) (useLog : Bool) : Bool := isEntry && useLog

end Nimble.EntryPoint
