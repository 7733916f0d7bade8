import Verif.Model.Obj
import Mathlib.Data.List.Perm.Subperm

/-!
# Specification vocabulary used by the property theorems

Small definitions in terms of the observable API only (`getNames`, `getIndex`, lengths).
-/

namespace Nimble

/-- What `checkInvariants` demands of an axis, in terms of the public API: `getNames()` has one
entry per element, and `names[i] == s` exactly when `getIndex(s) == i`. -/
structure NamesConsistent (a : AxisSt) : Prop where
  length_getNames : a.getNames.length = a.len
  getName_iff_getIndex : ∀ (s : String) (i : Nat),
    a.getNames[i]? = some (some s) ↔ a.getIndex (.str s) = .ok (i : Int)
  anyDefault_iff : a.anyDefaultNames = true ↔ (a.getNames.any (· == none) = true ∨ a.tbl = none)

/-- The representation invariant of a name table for an axis of length `n`
(`checkInvariants`, base.py:2428-2463 and axis.py `namesInverse`/`names` agreement). -/
structure NameTable.Ok (t : NameTable) (n : Nat) : Prop where
  length_inv : t.inv.length = n
  nodup : (PyDict.keys t.names).Nodup
  iff : ∀ (s : String) (i : Nat), t.inv[i]? = some (some s) ↔ PyDict.get? t.names s = some i

/-- The representation invariant of an axis. -/
def AxisSt.Ok (a : AxisSt) : Prop := ∀ t, a.tbl = some t → t.Ok a.len

/-- A well-formed object: as many rows as points, every row as long as there are features, and both
axes satisfy the names invariant.  This is what `checkInvariants` (base.py:2428-2463,
list.py `_checkInvariants_implementation`) asserts. -/
structure Obj.WF {V : Type} (o : Obj V) : Prop where
  rows : o.data.length = o.pts.len
  cols : ∀ r ∈ o.data, r.length = o.fts.len
  pts : o.pts.Ok
  fts : o.fts.Ok

/-- The object seen along an axis: for each point (feature) its name and its values, in order. -/
def Obj.lines {V : Type} (o : Obj V) (ax : Ax) : List (Option String × List V) :=
  (List.range (o.axis ax).len).map (fun i => (((o.axis ax).getNames[i]?).join, o.vector ax i))

/-- Everything observable about an object apart from whether default names exist already. -/
def Obj.Same {V : Type} (o o' : Obj V) : Prop :=
  o.pts.len = o'.pts.len ∧ o.fts.len = o'.fts.len ∧ o.data = o'.data ∧
  o.pts.getNames = o'.pts.getNames ∧ o.fts.getNames = o'.fts.getNames

/-- What `random.sample(l, k)` is documented to return: `k` elements of `l` chosen without
replacement, in some order. -/
def SampleSpec (samp : List Nat → Nat → List Nat) : Prop :=
  ∀ (l : List Nat) (k : Nat), k ≤ l.length → (samp l k).Subperm l ∧ (samp l k).length = k

/-- What `random.shuffle` is documented to do to `list(range(n))`. -/
def ShuffleSpec (n : Nat) (shuffled : List Nat) : Prop := shuffled.Perm (List.range n)

/-- The distinct elements of a list in the order of their first occurrence. -/
def firstOcc {α : Type} [DecidableEq α] : List α → List α
  | [] => []
  | x :: xs => x :: (firstOcc xs).filter (fun y => y ≠ x)

end Nimble
