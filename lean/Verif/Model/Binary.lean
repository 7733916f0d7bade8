import Verif.Model.NameChecks

/-!
# Names of the result of a binary operation (`nimble/core/data/base.py:5293-5446`)
-/

namespace Nimble

/-- `mergeNames(baseNames, otherNames)` on two lists (_dataHelpers.py:97-104); `zip` stops at the
shorter list, the rest stays `None`. -/
def mergeNameLists : List (Option String) → List (Option String) → List (Option String)
  | [], _ => []
  | _ :: b, [] => none :: mergeNameLists b []
  | b :: bs, o :: os => (if b.isNone then o else b) :: mergeNameLists bs os

/-- `mergeNames(baseNames, otherNames)` (_dataHelpers.py:84-104). -/
def mergeNames (base other : Option (List (Option String))) : Option (List (Option String)) :=
  match base, other with
  | b, none => b
  | none, some o => some o
  | some b, some o => some (mergeNameLists b o)

/-- `_validateEqualNames(axis, axis, ..)` (base.py:5946-5983): does it raise?  (The code asks twice
whether *self* has names; since lists that are `None` are skipped afterwards this makes no
difference.) -/
def namesEqualCheck (l r : AxisSt) : Bool :=
  match l.tbl, r.tbl with
  | some tl, some tr => (inconsistentNames tl.inv tr.inv).isEmpty
  | _, _ => true

/-- `_genericBinary_axisNamesDisjoint` (base.py:5346-5369): is the intersection of the given names
empty? -/
def namesDisjointCheck (l r : AxisSt) : Bool :=
  !(l.getNames.reduceOption.any (fun n => decide (n ∈ r.getNames.reduceOption)))

namespace Obj
variable {V : Type}

/-- `_genericBinary_axisNames` (base.py:5293-5344) for an operator that is not in place
(`inplace = false`) or is (`true`). -/
def binaryNames (inplace : Bool) (o other : Obj V) :
    Res (Option (List (Option String)) × Option (List (Option String))) :=
  let ftEq := namesEqualCheck o.fts other.fts
  let ptEq := namesEqualCheck o.pts other.pts
  if inplace && !ftEq then .error .InvalidArgumentValue
  else if inplace && !ptEq then .error .InvalidArgumentValue
  else if !ftEq && !ptEq then .error .InvalidArgumentValue
  else
    let p := mergeNames o.pts.getNamesNoGen other.pts.getNamesNoGen
    let f := mergeNames o.fts.getNamesNoGen other.fts.getNamesNoGen
    if ftEq && !ptEq then
      if namesDisjointCheck o.pts other.pts then .ok (none, f) else .error .InvalidArgumentValue
    else if ptEq && !ftEq then
      if namesDisjointCheck o.fts other.fts then .ok (p, none) else .error .InvalidArgumentValue
    else .ok (p, f)

/-- `left op right` for two objects, `op` total on the values (base.py:5391-5446; size validation
5227-5242).  Numeric conversion, zero-division checks and object names/paths are not modelled. -/
def binaryOp (f : V → V → V) (inplace : Bool) (o other : Obj V) : Res (Obj V) := do
  if o.pts.len ≠ other.pts.len then .error .InvalidArgumentValue
  else if o.fts.len ≠ other.fts.len then .error .InvalidArgumentValue
  else if o.pts.len = 0 ∨ o.fts.len = 0 then .error .ImproperObjectAction
  else
    let (p, fn) ← o.binaryNames inplace other
    let pts ← AxisSt.setNames ⟨o.pts.len, none⟩ (asAssign p)
    let fts ← AxisSt.setNames ⟨o.fts.len, none⟩ (asAssign fn)
    return ⟨List.zipWith (List.zipWith f) o.data other.data, pts, fts⟩

end Obj
end Nimble
