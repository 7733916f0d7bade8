import Verif.Model.Obj
import Verif.Model.Binary

/-!
# `merge` (base.py:4347-4784, list.py:375-526)

The join of two objects of the `List` type on point names or on a feature, for the modes 'left',
'union' and 'intersection' of each axis, and the forms with one axis 'strict'.  An object of another
type is converted before (base.py:4722-4723), which is not modelled.  `onFeature` is given by name or
by index.
-/

namespace Nimble

/-- The values 'left', 'union' and 'intersection' of the arguments `point` and `feature`. -/
inductive MergeMode where
  | left
  | union
  | intersection
  deriving DecidableEq, Repr

/-- What `merge` needs to know about Python values: the missing value, and that names and integers
are values, different from each other and not missing.  Values which compare equal in Python are the
same element of `V` (1, 1.0 and True); there is one missing value, not equal to itself. -/
structure MergeVals (V : Type) where
  nan : V
  ofName : String → V
  ofIdx : Nat → V
  ofName_inj : ∀ s t, ofName s = ofName t → s = t
  ofIdx_inj : ∀ s t, ofIdx s = ofIdx t → s = t
  ofName_ne_ofIdx : ∀ s n, ofName s ≠ ofIdx n
  ofName_ne_nan : ∀ s, ofName s ≠ nan
  ofIdx_ne_nan : ∀ n, ofIdx n ≠ nan

section
variable {V : Type} [DecidableEq V]

/-- `a == b`. -/
def pyEqv (nan a b : V) : Bool := decide (a = b ∧ a ≠ nan)

/-- `row[i]`; an index out of range (`IndexError` in Python) gives the missing value here: the
indices used are in range for objects whose rows have the length of the feature axis. -/
def rowCell (nan : V) (r : List V) (i : Nat) : V := r.getD i nan

/-- `acceptableValues` for one matching feature (list.py:477-482). -/
def pairOk (nan : V) (ptL ptR : List V) (p : Nat × Nat) : Bool :=
  pyEqv nan (rowCell nan ptL p.1) (rowCell nan ptR p.2) ||
    (rowCell nan ptL p.1 == nan || rowCell nan ptR p.2 == nan)

/-- The missing values of the left point are replaced, in place (list.py:487-495). -/
def fillLeft (nan : V) (mL mR : List Nat) (ptL ptR : List V) : List V :=
  ptL.mapIdx (fun i v =>
    if v = nan ∧ i ∈ mL then rowCell nan ptR (mR.getD (mL.idxOf i) 0) else v)

/-- The loop over the right points matching one left point (list.py:475-499).  The first component
is the left point after the loop: it is modified in place. -/
def mergeMatches (nan : V) (mL mR : List Nat) :
    List V → List (List V) → List V × Res (List (List V))
  | ptL, [] => (ptL, .ok [])
  | ptL, ptR :: rest =>
    if (mL.zip mR).all (pairOk nan ptL ptR) then
      let ptL' := fillLeft nan mL mR ptL ptR
      let out := mergeMatches nan mL mR ptL' rest
      (out.1, out.2.map (fun rows => (ptL' ++ dropIdx ptR mR) :: rows))
    else (ptL, .error .InvalidArgumentValue)

/-- The right points with the value of the left point in the column merged on
(list.py:465-469, `matchMapper`). -/
def mergeMates (nan : V) (onR : Nat) (right : List (List V)) (target : V) : List (List V) :=
  right.filter (fun r => pyEqv nan (rowCell nan r onR) target)

/-- The loop over the left points (list.py:471-504): the left points after the loop, and the merged
points. -/
def mergeLeft (nan : V) (point : MergeMode) (mL mR : List Nat) (onL onR : Nat)
    (right : List (List V)) (extra : Nat) :
    List (List V) → List (List V) × Res (List (List V))
  | [] => ([], .ok [])
  | ptL :: left =>
    let mates := mergeMates nan onR right (rowCell nan ptL onL)
    if mates = [] then
      let out := mergeLeft nan point mL mR onL onR right extra left
      (ptL :: out.1, out.2.map (fun rows =>
        if point = .intersection then rows else (ptL ++ List.replicate extra nan) :: rows))
    else
      match mergeMatches nan mL mR ptL mates with
      | (ptL', .error e) => (ptL' :: left, .error e)
      | (ptL', .ok rows1) =>
        let out := mergeLeft nan point mL mR onL onR right extra left
        (ptL' :: out.1, out.2.map (fun rows => rows1 ++ rows))

/-- A point of the right object without a match, for `point='union'` (list.py:510-514). -/
def newRow (nan : V) (mL mR : List Nat) (width : Nat) (row : List V) : List V :=
  (mL.zip mR).foldl (fun pt p => pt.set p.1 (rowCell nan row p.2)) (List.replicate width nan)
    ++ dropIdx row mR

/-- `matched` (list.py:471, 500): the values of the left points with a match. -/
def matchedTargets (nan : V) (onL onR : Nat) (left right : List (List V)) : List V :=
  (left.map (fun l => rowCell nan l onL)).filter (fun t => ! (mergeMates nan onR right t).isEmpty)

/-- list.py:461-516, for left and right lists prepared as below.  `right[0]` and `left[0]` raise an
`IndexError` for empty lists (463, 519). -/
def mergeCore (nan : V) (point : MergeMode) (mL mR : List Nat) (onL onR : Nat)
    (left right : List (List V)) : List (List V) × Res (List (List V)) :=
  match right with
  | [] => (left, .error .IndexError)
  | r0 :: _ =>
    let out := mergeLeft nan point mL mR onL onR right (r0.length - mR.length) left
    match out.2 with
    | .error e => (out.1, .error e)
    | .ok rows =>
      match left with
      | [] => (left, .error .IndexError)
      | l0 :: _ =>
        (out.1, .ok (rows ++
          if point = .union then
            (right.filter (fun row =>
              decide (rowCell nan row onR ∉ matchedTargets nan onL onR left right))).map
                (newRow nan mL mR l0.length)
          else []))

/-- `ptNameGetter(obj, idx, add)` (list.py:408-413). -/
def ptKey (m : MergeVals V) (names : List (Option String)) (add i : Nat) : V :=
  match (names[i]?).join with
  | some s => m.ofName s
  | none => m.ofIdx (i + add)

/-- The rows with the key of each point in front (list.py:415-459). -/
def withKeys (m : MergeVals V) (names : List (Option String)) (add : Nat) (rows : List (List V)) :
    List (List V) :=
  rows.zipIdx.map (fun p => ptKey m names add p.2 :: p.1)

/-- `[val for idx, val in enumerate(pt) if idx in idxs]` (list.py:418-419): in the order of `pt`. -/
def keepIdx {A : Type} (l : List A) (idxs : List Nat) : List A :=
  pick l ((List.range l.length).filter (fun i => decide (i ∈ idxs)))

/-- What the main part of the merge works on. -/
structure MergePrep (V : Type) where
  left : List (List V)
  right : List (List V)
  mL : List Nat
  mR : List Nat
  onL : Nat
  onR : Nat

/-- Merging on point names: the key column is put in front (list.py:399-459).  When there is no
left row (or no right row) the lists of matching features differ from the ones here; then the
merge raises an `IndexError` anyway. -/
def prepNames (m : MergeVals V) (lN rN : List (Option String)) (feature : MergeMode)
    (left right : List (List V)) (mL mR : List Nat) : MergePrep V :=
  match feature with
  | .intersection =>
    ⟨withKeys m lN 0 (left.map (fun pt => keepIdx pt mL)),
     withKeys m rN left.length (right.map (fun pt => pick pt mR)),
     List.range (mL.length + 1), List.range (mL.length + 1), 0, 0⟩
  | .left =>
    ⟨withKeys m lN 0 left,
     withKeys m rN left.length (right.map (fun pt => pick pt mR)),
     0 :: mL.map (· + 1), List.range (mR.length + 1), 0, 0⟩
  | .union =>
    ⟨withKeys m lN 0 left, withKeys m rN left.length right,
     0 :: mL.map (· + 1), 0 :: mR.map (· + 1), 0, 0⟩

/-- Merging on a feature (list.py:377-398); `iL`, `iR` are the indices of that feature.  For
'intersection' and 'left' the column used in *both* objects is the position of the feature in the
list of matching features (380-382). -/
def prepOn (feature : MergeMode) (iL iR : Nat) (left right : List (List V)) (mL mR : List Nat) :
    MergePrep V :=
  match feature with
  | .intersection =>
    ⟨left.map (fun pt => pick pt mL), right.map (fun pt => pick pt mR),
     List.range mL.length, List.range mR.length, mL.idxOf iL, mL.idxOf iL⟩
  | .left =>
    ⟨left, right.map (fun pt => pick pt mR),
     mL, List.range mR.length, mL.idxOf iL, mL.idxOf iL⟩
  | .union => ⟨left, right, mL, mR, iL, iR⟩

end

/-- `self.features._getMatchingNames(other)` (axis.py:1517-1527), in the order of the dict of names
of the left object.  The test whether there is any repeated name (1523) does not change the result;
both axes have names when the merge gets here. -/
def matchingNames (l r : AxisSt) : List String :=
  match l.tbl, r.tbl with
  | some tl, some tr => tl.names.keys.filter (fun s => PyDict.has tr.names s)
  | _, _ => []

/-- The indices of given names (base.py:4715-4720). -/
def idxOfNames (a : AxisSt) (ns : List String) : List Nat :=
  ns.filterMap (fun s => a.tbl.bind (fun t => PyDict.get? t.names s))

/-- `onFeature`: a name or an index. -/
inductive OnFt where
  | name (s : String)
  | index (i : Int)
  deriving DecidableEq, Repr

namespace Obj
variable {V : Type} [DecidableEq V]

/-- `onFeature` as a name: an index is allowed when the names at that index agree
(base.py:4694-4702). -/
def resolveOn (self other : Obj V) : OnFt → Res String
  | .name s => .ok s
  | .index i => do
    let a ← self.fts.getIndex (.int i)
    let b ← other.fts.getIndex (.int i)
    match (self.fts.getNames[a.toNat]?).join, (other.fts.getNames[b.toNat]?).join with
    | some s, some t => if s = t then .ok s else .error .InvalidArgumentValue
    | _, _ => .error .InvalidArgumentValue

/-- A column (`self[:, onFeature]`). -/
def columnOf (nan : V) (o : Obj V) (i : Nat) : List V := o.data.map (fun r => rowCell nan r i)

/-- The indices of the feature to merge on, which must be in both objects and without repeated
values in one of them (base.py:4703-4712).  Missing values count as equal here; in Python two
missing values are equal in a set when they are the same object. -/
def checkOn (nan : V) (self other : Obj V) (s : String) : Res (Nat × Nat) :=
  match self.fts.getIndexByName s, other.fts.getIndexByName s with
  | .ok i, .ok j =>
    if (self.columnOf nan i).Nodup ∨ (other.columnOf nan j).Nodup then .ok (i, j)
    else .error .InvalidArgumentValue
  | _, _ => .error .InvalidArgumentValue

/-- The validation of `_genericMergeFrontend` (base.py:4680-4712): the indices of the feature merged
on, if any. -/
def mergeCheck (nan : V) (self other : Obj V) (on : Option OnFt) : Res (Option (Nat × Nat)) :=
  if on.isNone ∧ ¬ (self.pts.namesCreated ∧ other.pts.namesCreated) then
    .error .InvalidArgumentValueCombination
  else if ¬ (self.fts.namesCreated ∧ other.fts.namesCreated) then
    .error .InvalidArgumentValueCombination
  else
    match on with
    | none => .ok none
    | some f => do
      let s ← self.resolveOn other f
      let ij ← self.checkOn nan other s
      return some ij

/-- The names of the features afterwards (base.py:4727-4751); `none` when they are not set.  Both
objects have feature names when the merge gets here. -/
def mergedFtNames (self other : Obj V) (feature : MergeMode) : Option (List (Option String)) :=
  let matching := (matchingNames self.fts other.fts).map some
  match feature with
  | .intersection => some (self.fts.getNames.filter (fun n => decide (n ∈ matching)))
  | .union => some (self.fts.getNames ++ other.fts.getNames.filter (fun n => decide (n ∉ matching)))
  | .left => none

/-- The names of the points afterwards (base.py:4753-4784), merging on point names.  Both objects
have point names when the merge gets here. -/
def mergedPtNames (self other : Obj V) (point : MergeMode) : List (Option String) :=
  match point with
  | .left => self.pts.getNames
  | .intersection =>
    self.pts.getNames.filter (fun n => decide (n ∈ other.pts.getNames ∧ n ≠ none))
  | .union => self.pts.getNames ++
      other.pts.getNames.filter (fun n => decide (n = none ∨ n ∉ self.pts.getNames))

/-- Set the names if there are any to set (base.py:4729-4751). -/
def setIfSome (a : AxisSt) : Option (List (Option String)) → Res AxisSt
  | none => .ok a
  | some l => a.setNames (.list l)

/-- The object with the merged rows, and its names (list.py:516-526, base.py:4727-4784). -/
def mergeNamesOut (self other : Obj V) (point feature : MergeMode) (keyed : Bool)
    (rows : List (List V)) (width : Nat) : Obj V × Res Unit :=
  let mid : Obj V := ⟨if keyed then rows.map (List.drop 1) else rows,
    { self.pts with len := rows.length },
    { self.fts with len := if keyed then width - 1 else width }⟩
  match setIfSome mid.fts (self.mergedFtNames other feature) with
  | .error e => (mid, .error e)
  | .ok f =>
    if keyed then
      match mid.pts.setNames (.list (self.mergedPtNames other point)) with
      | .error e => ({ mid with fts := f }, .error e)
      | .ok p => ({ mid with fts := f, pts := p }, .ok ())
    else ({ mid with fts := f, pts := { mid.pts with tbl := none } }, .ok ())

/-- `len(left[0]) + unmatchedFtCountR` (list.py:463, 516). -/
def mergeWidth (p : MergePrep V) : Nat :=
  (p.left.headD []).length + ((p.right.headD []).length - p.mR.length)

/-- The lists the merge works on (list.py:377-461). -/
def mergePrep (m : MergeVals V) (self other : Obj V) (feature : MergeMode)
    (on : Option (Nat × Nat)) : MergePrep V :=
  let ns := matchingNames self.fts other.fts
  let mL := idxOfNames self.fts ns
  let mR := idxOfNames other.fts ns
  match on with
  | none => prepNames m self.pts.getNames other.pts.getNames feature self.data other.data mL mR
  | some ij => prepOn feature ij.1 ij.2 self.data other.data mL mR

/-- `_genericMergeFrontend(other, point, feature, onFeature)` (base.py:4679-4784) with
`_merge_implementation` (list.py:375-526): the state afterwards and the outcome.  A refusal in the
middle leaves the data as prepared. -/
def mergeFront (m : MergeVals V) (self other : Obj V) (point feature : MergeMode)
    (on : Option OnFt) : Obj V × Res Unit :=
  match self.mergeCheck m.nan other on with
  | .error e => (self, .error e)
  | .ok ij =>
    let p := self.mergePrep m other feature ij
    let out := mergeCore m.nan point p.mL p.mR p.onL p.onR p.left p.right
    match out.2 with
    | .error e => ({ self with data := out.1 }, .error e)
    | .ok rows => self.mergeNamesOut other point feature ij.isNone rows (mergeWidth p)

/-- Whether `if onFeature:` holds (base.py:4581): not for the index 0. -/
def onTruthy : Option OnFt → Bool
  | none => false
  | some (.name s) => decide (s ≠ "")
  | some (.index i) => decide (i ≠ 0)

/-- `onFeature` as an identifier. -/
def onIdent : OnFt → Ident
  | .name s => .str s
  | .index i => .int i

/-- `merge(other, point, feature, onFeature)` without 'strict' (base.py:4577-4582); `le` is the order
of the values used by `points.sort`. -/
def merge (m : MergeVals V) (le : V → V → Bool) (self other : Obj V) (point feature : MergeMode)
    (on : Option OnFt) : Obj V × Res Unit :=
  let out := self.mergeFront m other point feature on
  match out.2, on with
  | .ok (), some f =>
    if point = .union ∧ onTruthy on then sortBy le false out.1 .point [onIdent f] else out
  | _, _ => out

/-! ### One axis 'strict' -/

/-- The names used during a merge with `force=True` and default names (base.py:4655-4656). -/
def strictNames (l : List (Option String)) : List (Option String) :=
  l.zipIdx.map (fun p => some (p.1.getD ("_STRICT" ++ toString p.2)))

/-- The two axes as they are named before the merge, and the names to set afterwards, which is done
only if the merge succeeds (base.py:4630-4669); `.error` comes with the left axis as it is then. -/
def strictAxes (force : Bool) (l r : AxisSt) : AxisSt × Res (AxisSt × Option (List (Option String))) :=
  let lAll := ! l.anyDefaultNames
  let rAll := ! r.anyDefaultNames
  if lAll && rAll then
    if l.getNames.Perm r.getNames then (l, .ok (r, l.getNamesNoGen))
    else (l, .error .InvalidArgumentValue)
  else if force && lAll && ! r.namesCreated then
    (l, (r.setNames (.list l.getNames)).map (fun r' => (r', l.getNamesNoGen)))
  else if force && ! l.namesCreated && rAll then
    match l.setNames (.list r.getNames) with
    | .error e => (l, .error e)
    | .ok l' => (l', .ok (r, r.getNamesNoGen))
  else if force then
    let endNames := mergeNameLists l.getNames r.getNames
    match l.setNames (.list (strictNames endNames)) with
    | .error _ => (l, .error .InvalidArgumentValue)
    | .ok l' => match r.setNames (.list (strictNames endNames)) with
      | .error _ => (l', .error .InvalidArgumentValue)
      | .ok r' => (l', .ok (r', some endNames))
  else (l, .error .InvalidArgumentValue)

/-- `lAxis.setNames(None)` or `lAxis.setNames(endNames)` (base.py:4673-4677); `created` tells whether
one of the objects had names before. -/
def strictReset (created : Bool) (endNames : Option (List (Option String))) (a : AxisSt) : Res AxisSt :=
  match created, endNames with
  | true, some l => a.setNames (.list l)
  | _, _ => a.setNames .none

/-- `merge(point='strict', feature=mode, onFeature=None, force)` (ax = point) and
`merge(point=mode, feature='strict', onFeature, force)` (ax = feature) (base.py:4585-4677, 4580-4582).
The case of `point='strict'` with a feature is `mergeStrictOn`. -/
def mergeStrict (m : MergeVals V) (le : V → V → Bool) (self other : Obj V) (ax : Ax)
    (mode : MergeMode) (on : Option OnFt) (force : Bool) : Obj V × Res Unit :=
  if (self.axis ax).len ≠ (other.axis ax).len then (self, .error .InvalidArgumentValue)
  else
    let pre := strictAxes force (self.axis ax) (other.axis ax)
    let self' := self.setAxis ax pre.1
    match pre.2 with
    | .error e => (self', .error e)
    | .ok (r, endNames) =>
      let out := match ax with
        | .point => self'.mergeFront m (other.setAxis ax r) .intersection mode on
        | .feature => self'.mergeFront m (other.setAxis ax r) mode .intersection on
      match out.2 with
      | .error e => (out.1, .error e)
      | .ok () =>
        match strictReset ((self.axis ax).namesCreated || (other.axis ax).namesCreated) endNames
            (out.1.axis ax) with
        | .error e => (out.1, .error e)
        | .ok a =>
          let fin := out.1.setAxis ax a
          match on with
          | some f => if ax = .feature ∧ mode = .union ∧ onTruthy on
              then sortBy le false fin .point [onIdent f] else (fin, .ok ())
          | none => (fin, .ok ())

/-- `merge(point='strict', feature=mode, onFeature=name)` (base.py:4613-4628): the values must be
unique and the same in both objects.  `sorted(a) != sorted(b)` is modelled as: not a rearrangement of
each other. -/
def mergeStrictOn (m : MergeVals V) (self other : Obj V) (mode : MergeMode) (s : String) :
    Obj V × Res Unit :=
  if self.pts.len ≠ other.pts.len then (self, .error .InvalidArgumentValue)
  else
    match self.fts.getIndexByName s, other.fts.getIndexByName s with
    | .ok i, .ok j =>
      if ¬ (self.columnOf m.nan i).Nodup then (self, .error .InvalidArgumentValueCombination)
      else if ¬ (self.columnOf m.nan i).Perm (other.columnOf m.nan j) then
        (self, .error .InvalidArgumentValueCombination)
      else self.mergeFront m other .intersection mode (some (.name s))
    | _, _ => (self, .error .InvalidArgumentValue)

end Obj

end Nimble
