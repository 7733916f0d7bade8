import Verif.Model.AxisReplace

/-!
# `features.normalize`

features.py:1989-2018.  The calling object and `applyResultTo` are two different objects; the function is one that
returns a pair, given the values of a feature of each.
-/

namespace Nimble.NormF
open Nimble Nimble.Obj
variable {V : Type}

/-- The `features` argument: all, one identifier, a list. -/
inductive Which where
  | all
  | one (id : Ident)
  | list (ids : List Ident)

/-- Iterating over the argument (features.py:2006-2007): a name is a text, so its characters; a number cannot be
iterated over. -/
def iterated : Which → Res (Option (List Ident))
  | .all => .ok none
  | .one (.str s) => .ok (some (s.toList.map (fun c => .str (String.singleton c))))
  | .one _ => .error .TypeError
  | .list ids => .ok (some ids)

/-- `features.transform` understands one identifier too (axis.py:503-504, `constructIndicesList`). -/
def limit : Which → Option (List Ident)
  | .all => none
  | .one id => some [id]
  | .list ids => some ids

/-- `normalize(function, features=…)` without a second object (features.py:1991-1992). -/
def normalizeOne (f : List V → Res (List V)) (a : Obj V) (w : Which) : Obj V × Res Unit :=
  a.transform f .feature (limit w)

/-- The names do not contradict each other (features.py:1998-2005): only compared if both have some. -/
def namesAgree (a b : AxisSt) : Bool :=
  match a.getNamesNoGen, b.getNamesNoGen with
  | some l, some m => decide (l = m)
  | _, _ => true

/-- The loop over the pairs of features (features.py:2008-2016); what the two objects are afterwards. -/
def normLoop (f : List V → List V → Res (List V × List V)) (want : Nat → Bool) :
    List Nat → Obj V → Obj V → (Obj V × Obj V) × Res Unit
  | [], a, b => ((a, b), .ok ())
  | i :: is, a, b =>
    if want i then
      match f (a.vector .feature i) (b.vector .feature i) with
      | .error e => ((a, b), .error e)
      | .ok p =>
        match a.transform (fun _ => .ok p.1) .feature (some [.int i]) with
        | (a', .error e) => ((a', b), .error e)
        | (a', .ok _) =>
          match b.transform (fun _ => .ok p.2) .feature (some [.int i]) with
          | (b', .error e) => ((a', b'), .error e)
          | (b', .ok _) => normLoop f want is a' b'
    else normLoop f want is a b

/-- `normalize(function, applyResultTo, features)` (features.py:1993-2016). -/
def normalizeBoth (f : List V → List V → Res (List V × List V)) (a b : Obj V) (w : Which) : (Obj V × Obj V) × Res Unit :=
  if a.fts.len ≠ b.fts.len then ((a, b), .error .InvalidArgumentValue)
  else if namesAgree a.fts b.fts = false then ((a, b), .error .InvalidArgumentValue)
  else match iterated w with
    | .error e => ((a, b), .error e)
    | .ok ids => match resolveLimit a.fts ids with
      | .error e => ((a, b), .error e)
      | .ok lim => normLoop f (inLimit lim) (List.range a.fts.len) a b

end Nimble.NormF
