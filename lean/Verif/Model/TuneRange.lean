import Verif.Py
import Mathlib.Data.Rat.Defs

/-!
# `Tune` ranges

`Tune.__init__` with `start`/`end`/`change`/`changeType` (`nimble/core/tune.py:1382-1449`), over
exact rationals.  `rnd` stands for `round(·, 12)`.
-/

namespace Nimble

/-- `changeType` (tune.py:1410-1421); `None` is `'add'`. -/
inductive ChangeType where
  | add
  | multiply
  deriving DecidableEq

/-- The direction chosen by the checks: `comp` is `le` or `ge` (tune.py:1426-1441).  When `start`
equals `end` neither branch runs and the later use of `comp` raises `UnboundLocalError`
(a `NameError`). -/
def tuneDirection (start stop change : Rat) (ct : ChangeType) : Res Bool :=
  if start < stop then
    if ct = .multiply ∧ change < 1 then .error .InvalidArgumentValue
    else if ct = .add ∧ change ≤ 0 then .error .InvalidArgumentValue
    else .ok true
  else if start > stop then
    if ct = .multiply ∧ (change ≥ 1 ∨ change ≤ 0) then .error .InvalidArgumentValue
    else if ct = .add ∧ change ≥ 0 then .error .InvalidArgumentValue
    else .ok false
  else .error .NameError

/-- `comp(curr, self._end)`. -/
def tuneComp (up : Bool) (curr stop : Rat) : Prop := if up then curr ≤ stop else curr ≥ stop

/-- The next value (tune.py:1446-1449). -/
def tuneNext (rnd : Rat → Rat) (stop change : Rat) (ct : ChangeType) (curr : Rat) : Rat :=
  match ct with
  | .add => if rnd (curr + change) = stop then stop else curr + change
  | .multiply => curr * change

/-- A terminating execution of the `while` loop (tune.py:1443-1449) from `curr`, with the values it
appends.  There is no such execution when the loop runs forever. -/
inductive TuneLoop (rnd : Rat → Rat) (up : Bool) (stop change : Rat) (ct : ChangeType) :
    Rat → List Rat → Prop
  | exit {curr} : ¬ tuneComp up curr stop → TuneLoop rnd up stop change ct curr []
  | step {curr vals} : tuneComp up curr stop →
      TuneLoop rnd up stop change ct (tuneNext rnd stop change ct curr) vals →
      TuneLoop rnd up stop change ct curr (curr :: vals)

/-- `Tune(start=…, end=…, change=…, changeType=…)` is accepted and holds `vals`; missing arguments
are replaced by 0, 1 and `'add'` (tune.py:1406-1411). -/
def TuneValues (rnd : Rat → Rat) (start : Option Rat) (stop : Rat) (change : Option Rat)
    (ct : Option ChangeType) (vals : List Rat) : Prop :=
  ∃ up, tuneDirection (start.getD 0) stop (change.getD 1) (ct.getD .add) = .ok up ∧
    TuneLoop rnd up stop (change.getD 1) (ct.getD .add) (start.getD 0) vals

/-- `Tune(range(start, stop, step))` (tune.py:1396-1400): `end` becomes `stop - 1`. -/
def TuneOfRange (rnd : Rat → Rat) (start stop step : Int) (vals : List Rat) : Prop :=
  TuneValues rnd (some start) ((stop : Rat) - 1) (some step) none vals

end Nimble
