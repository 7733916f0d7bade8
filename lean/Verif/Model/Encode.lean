import Verif.Model.Fill
import Verif.Model.Insert

/-!
# `transformFeatureToIntegers` (base.py:605-678) and `replaceFeatureWithBinaryFeatures`
(base.py:520-601)

Values are compared with Python's `==` (`DecidableEq`): a nan that is equal to nothing, not even to
itself, is not modelled.
-/

namespace Nimble
variable {V : Type} [DecidableEq V]

/-! ## transformFeatureToIntegers -/

/-- The local state of `applyMap`: `mapping`, `mapped` and `integerValue` (base.py:653-656). -/
structure IntState (V : Type) where
  mapping : PyDict V Nat
  mapped : List Nat
  next : Nat

/-- `for key in mapping: mapping[key] += 1` (base.py:663-664). -/
def bumpAll (d : PyDict V Nat) : PyDict V Nat := d.map (fun p => (p.1, p.2 + 1))

/-- One round of the loop of `applyMap` (base.py:657-672); `num 0` is the number zero. -/
def intStep (num : Nat → V) (s : IntState V) (val : V) : IntState V :=
  match PyDict.get? s.mapping val with
  | some n => ⟨s.mapping, s.mapped ++ [n], s.next⟩
  | none =>
    if val = num 0 then
      ⟨PyDict.set (bumpAll s.mapping) (num 0) 0, s.mapped.map (· + 1) ++ [0], s.next + 1⟩
    else ⟨PyDict.set s.mapping val s.next, s.mapped ++ [s.next], s.next + 1⟩

/-- `applyMap(ft)` (base.py:654-674): the final state. -/
def applyMap (num : Nat → V) (ft : List V) : IntState V := ft.foldl (intStep num) ⟨[], [], 0⟩

/-- `{v: k for k, v in mapping.items()}` (base.py:678). -/
def invertMap (d : PyDict V Nat) : PyDict Nat V := PyDict.ofPairs (d.map (fun p => (p.2, p.1)))

/-- `transformFeatureToIntegers(feature)` (base.py:605-678).  `num` embeds the integers into the
elements.  The function handed to `transform` is called once, on the chosen feature, so the mapping
it leaves behind is the one of that call. -/
def Obj.featureToIntegers (num : Nat → V) (o : Obj V) (id : Ident) :
    Obj V × Res (PyDict Nat V) :=
  if o.pts.len = 0 then (o, .error .ImproperObjectAction)
  else match o.fts.getIndex id with
    | .error e => (o, .error e)
    | .ok j =>
      let r := o.transform (fun ft => .ok ((applyMap num ft).mapped.map num)) .feature
        (some [.int j])
      (r.1, r.2.map (fun _ => invertMap (applyMap num (o.vector .feature j.toNat)).mapping))

/-! ## replaceFeatureWithBinaryFeatures -/

/-- What the method needs to know about the elements: the numbers zero and one, `str`, whether a
feature is converted to a numeric numpy array, and the order of numbers. -/
structure EncOps (V : Type) where
  zero : V
  one : V
  str : V → String
  numeric : List V → Bool
  le : V → V → Bool

/-- The keys of `mapping` in `denseCountUnique` (_dataHelpers.py:483-493): the values in the order
in which they are first seen. -/
def seenKeys (l : List V) : PyDict V Unit := l.foldl (fun d v => PyDict.set d v ()) []

/-- `countUniqueElements().keys()` (_dataHelpers.py:463-513): `np.unique` sorts numeric values;
otherwise the values come in the order in which they are first seen. -/
def uniqueKeys (E : EncOps V) (l : List V) : List V :=
  if E.numeric l then (PyDict.keys (seenKeys l)).mergeSort E.le else PyDict.keys (seenKeys l)

/-- One row of `toFill` (list.py:529-532): zeros and a one at `uniqueIdx[val]`; a value that is no
key raises. -/
def binaryRow (E : EncOps V) (uniq : List V) (val : V) : Res (List V) :=
  if val ∈ uniq then .ok ((List.replicate uniq.length E.zero).set (uniq.idxOf val) E.one)
  else .error .KeyError

/-- `_replaceFeatureWithBinaryFeatures_implementation` (list.py:528-533). -/
def binaryRows (E : EncOps V) (uniq : List V) : List V → Res (List (List V))
  | [] => .ok []
  | v :: vs => do
    let r ← binaryRow E uniq v
    let rs ← binaryRows E uniq vs
    return r :: rs

/-- The prefix of the new feature names (base.py:586-589): `None + "="` raises. -/
def binaryPrefix (rep : AxisSt) (index : Nat) : Res String :=
  match rep.tbl with
  | none => .ok (Nat.repr index ++ "=")
  | some t => match (t.inv[0]?).join with
    | none => .error .TypeError
    | some s => .ok (s ++ "=")

/-- The object holding the new features and their names (base.py:576-592); `rep` is the extracted
feature, `pts` the points axis of the caller. -/
def binaryObj (E : EncOps V) (rep : Obj V) (pts : AxisSt) (index : Nat) :
    Res (Obj V × List String) := do
  let col := rep.vector .feature 0
  let uniq := uniqueKeys E col
  let rows ← binaryRows E uniq col
  let b ← Obj.makeFrom rows uniq.length none none
  let bp ← b.pts.setNames (Obj.asAssign pts.getNamesNoGen)
  let pre ← binaryPrefix rep.fts index
  let names := uniq.map (fun v => pre ++ E.str v)
  let bf ← b.fts.setNames (.list (names.map some))
  return (⟨b.data, bp, bf⟩, names)

/-- `replaceFeatureWithBinaryFeatures(feature)` (base.py:568-601): the feature is extracted first
and stays removed when a later step raises. -/
def Obj.replaceWithBinary (E : EncOps V) (samp : List Nat → Nat → List Nat) (o : Obj V)
    (id : Ident) : Obj V × Res (List String) :=
  if o.pts.len = 0 then (o, .error .ImproperObjectAction)
  else match o.fts.getIndex id with
    | .error e => (o, .error e)
    | .ok index =>
      let x := o.extract samp .feature { target := some (.list [.int index]) }
      match x.2 with
      | .error e => (x.1, .error e)
      | .ok rep =>
        match binaryObj E rep x.1.pts index.toNat with
        | .error e => (x.1, .error e)
        | .ok b =>
          match x.1.insert .feature (if x.1.fts.len = 0 then none else some (.int index)) b.1 with
          | .error e => (x.1, .error e)
          | .ok r => (r, .ok b.2)

end Nimble
