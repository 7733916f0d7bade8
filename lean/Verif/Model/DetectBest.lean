import Verif.Model.Names

/-!
# nimble.calculate.detectBestResult (`nimble/calculate/utility.py:41-349`)

The performance function under test is any function of the known values (one column) and the predicted values (rows),
which raises, returns nan (`none`) or returns a number. Simplifications: it is a pure function (it changes neither of
the two objects and draws no random numbers), it does not return infinities, numbers are exact. The random numbers the
trials draw are an argument (`Draws`): the theorems hold for every draw.
-/

namespace Nimble.DetectBest

/-- The function to check: raises, returns nan (`none`) or a number. -/
abbrev Perf := List Rat → List (List Rat) → Except String (Option Rat)

/-- The three formats of predicted values (utility.py:82-85). -/
inductive Format | labels | bestScores | allScores
  deriving DecidableEq

/-- 'max', 'min', 'nan' or an exception (kept as its message). -/
inductive Outcome | max | min | nan | exc (msg : String)
  deriving DecidableEq

/-- `validResult` (utility.py:73-78). -/
def Outcome.valid : Outcome → Bool
  | .max => true
  | .min => true
  | .nan => false
  | .exc _ => false

/-- The number an integer label is. -/
def num (b : Bool) : Rat := if b then 1 else 0

/-- What one trial draws: the knowns (`_generateMixedRandom`, utility.py:264-271), the scores of format 1
(utility.py:288) and the (winner, loser) pairs of format 2 (utility.py:297-298). -/
structure Draw where
  knowns : List Bool
  best : List Bool
  all : List (Nat × Nat)
  deriving DecidableEq

/-- `_generatePredicted` (utility.py:274-309); the names of the features are left out. -/
def generatePredicted (d : Draw) : Format → List (List Rat)
  | .labels => d.knowns.map (fun b => [num b])
  | .bestScores => List.zipWith (fun b s => [num b, num s]) d.knowns d.best
  | .allScores => List.zipWith (fun b (s : Nat × Nat) =>
      if b then [(s.2 : Rat), (s.1 : Rat)] else [(s.1 : Rat), (s.2 : Rat)]) d.knowns d.all

/-- `math.fabs`. -/
def fabs (x : Rat) : Rat := if x < 0 then -x else x

/-- `_makeIncorrect` on one row (utility.py:312-318). -/
def incorrectRow : Format → List Rat → List Rat
  | .labels, x :: r => fabs (x - 1) :: r
  | .bestScores, x :: r => fabs (x - 1) :: r
  | .allScores, x :: y :: r => y :: x :: r
  | _, r => r

/-- `_makeIncorrect` (utility.py:312-318). -/
def makeIncorrect (fmt : Format) (P : List (List Rat)) (i : Nat) : List (List Rat) :=
  P.modify i (incorrectRow fmt)

/-- The scores of the loop (utility.py:213-215) over the given indices. -/
def scoreLoop (f : Perf) (K : List Rat) (fmt : Format) : List Nat → List (List Rat) → Except String (List (Option Rat))
  | [], _ => .ok []
  | i :: is, P => do
    let P' := makeIncorrect fmt P i
    let s ← f K P'
    let rest ← scoreLoop f K fmt is P'
    return s :: rest

/-- The scan for 'max' (utility.py:225-233). -/
def scanMax (wrong correct : Rat) : Rat → List Rat → Bool
  | _, [] => true
  | prev, s :: ss => if s < wrong ∨ s > correct ∨ s > prev then false else scanMax wrong correct s ss

/-- The scan for 'min' (utility.py:237-245). -/
def scanMin (wrong correct : Rat) : Rat → List Rat → Bool
  | _, [] => true
  | prev, s :: ss => if s > wrong ∨ s < correct ∨ s < prev then false else scanMin wrong correct s ss

/-- The judgement of a list of scores (utility.py:217-251); `math.isnan` over all scores first. -/
def judge (scores : List (Option Rat)) : Outcome :=
  if scores.any Option.isNone then .nan
  else
    let ss := scores.filterMap id
    let correct := ss.headD 0
    let wrong := ss.getLastD 0
    if wrong < correct then
      (if scanMax wrong correct (correct + 1) ss then .max else .exc "non monotonic")
    else if wrong > correct then
      (if scanMin wrong correct (correct - 1) ss then .min else .exc "non monotonic")
    else .exc "no difference"

/-- The scores of a trial (utility.py:204-215). -/
def trialScores (f : Perf) (K : List Rat) (P : List (List Rat)) (fmt : Format) : Except String (List (Option Rat)) := do
  let s ← f K P
  let rest ← scoreLoop f K fmt (List.range P.length) P
  return s :: rest

/-- An exception of the trial is its result (utility.py:88-92, 109-114, 136-148). -/
def asOutcome : Except String (List (Option Rat)) → Outcome
  | .ok l => judge l
  | .error e => .exc e

/-- `_runTrialGivenParameters` inside its `try` (utility.py:88-92, 203-251). -/
def runTrial (f : Perf) (d : Draw) (fmt : Format) : Outcome :=
  asOutcome (trialScores f (d.knowns.map num) (generatePredicted d fmt) fmt)

/-- `resultMixed != result` (utility.py:116): an exception is only equal to itself, and each is a new object. -/
def differs : Outcome → Outcome → Bool
  | .max, .max => false
  | .min, .min => false
  | .nan, .nan => false
  | _, _ => true

/-- The repeated trials (utility.py:107-131). -/
def confidence (f : Perf) (fmt : Format) : Bool → Outcome → List Draw → Outcome
  | _, result, [] => result
  | freebie, result, d :: ds =>
    let mixed := runTrial f d fmt
    if differs mixed result then
      if freebie then confidence f fmt false result ds
      else if mixed.valid then confidence f fmt freebie (.exc "inconsistent") ds
      else mixed
    else confidence f fmt freebie result ds

/-- The trials with only zeros / only ones (utility.py:135, 142, 254-261). -/
def uniformDraw (b : Bool) (n : Nat) : Draw := ⟨List.replicate n b, [], []⟩

/-- The further trials with labels (utility.py:134-161). -/
def simpler (f : Perf) (n : Nat) (result : Outcome) : Outcome :=
  let zeros := runTrial f (uniformDraw false n) .labels
  let ones := runTrial f (uniformDraw true n) .labels
  if zeros.valid && ones.valid && differs zeros ones then .exc "inconsistent" else result

/-- What all trials of one format draw: the main trial and the repeated ones. -/
structure FormatDraws where
  main : Draw
  more : List Draw

/-- `confidenceTrials` (utility.py:100). -/
def confidenceTrials : Format → Nat
  | .labels => 1
  | _ => 10

/-- The result recorded for one format (utility.py:85-165). -/
def formatResult (f : Perf) (n : Nat) (fmt : Format) (D : FormatDraws) : Outcome :=
  let result := runTrial f D.main fmt
  if result.valid then
    let result := confidence f fmt (decide (fmt = .labels)) result (D.more.take (confidenceTrials fmt))
    if fmt = .labels then simpler f n result else result
  else result

/-- The loop over the three results (utility.py:167-183). -/
def pickBest : Option Outcome → List Outcome → Res Outcome
  | some b, [] => .ok b
  | none, [] => .error .InvalidArgumentValue
  | best, r :: rs =>
    if r.valid then
      if best.isSome && differs r (best.getD r) then .error .InvalidArgumentValue
      else pickBest (some r) rs
    else pickBest best rs

/-- `detectBestResult` (utility.py:41-183); `optimal` is the value of the attribute, if there is one, `D` what the
trials of each format draw. -/
def detectBestResult (optimal : Option String) (f : Perf) (D : Format → FormatDraws) : Res Outcome :=
  if optimal = some "min" then .ok .min
  else if optimal = some "max" then .ok .max
  else pickBest none ([.labels, .bestScores, .allScores].map (fun fmt => formatResult f 10 fmt (D fmt)))

end Nimble.DetectBest
