import Verif.Model.HighDim
import Verif.Model.Calculate
import Verif.Model.Statistic

/-!
# `report` of an object (base.py:1733-1787)

Values are rational numbers or missing (`none`).  The log entry and the conversion of the list of results to
an object of one point are not modelled: the result is the list of the names and the values.
-/

namespace Nimble
namespace Report

/-- A value of the report. -/
inductive Cell where
  | num (q : ℚ)
  | text (s : String)
  deriving DecidableEq

/-- `' x '.join(map(str, self._dims))` (base.py:1767). -/
def joined (dims : List Nat) : String := String.intercalate " x " (dims.map toString)

/-- `sum(self.features.calculate(func) / len(self.features))` (base.py:1777-1779), in `_treatAs2D`
(base.py:414-431). -/
def overall (func : List (Option ℚ) → ℚ) (o : Obj (Option ℚ)) : Res ℚ := do
  let r ← Obj.calculate (fun v => .ok ⟨[func v.vals], none⟩) o .feature none
  return ((r.data.flatten.map (fun x => x / (o.fts.len : ℚ))).sum)

/-- The size (base.py:1763-1771). -/
def size (h : HObj (Option ℚ)) : List (String × Cell) :=
  ("Values", .num h.dims.prod) ::
    (if h.dims.length > 2 then [("Dimensions", .text (joined h.dims))]
    else [("Points", .num ((h.dims[0]?).getD 0 : Nat)), ("Features", .num ((h.dims[1]?).getD 0 : Nat))])

/-- `report` (base.py:1733-1787). -/
def report (h : HObj (Option ℚ)) : Res (List (String × Cell)) := do
  let z ← overall Stat.proportionZeroD h.obj
  let m ← overall Stat.proportionMissingD h.obj
  return size h ++ [("proportionZero", .num z), ("proportionMissing", .num m)]

end Report
end Nimble
