import Verif.Model.Merge
import Verif.Model.Sparse

/-!
# `merge` of `Matrix` and `Sparse` objects (matrix.py:247-390, sparse.py:612-781)

`DataFrame` leaves the join to pandas, which is not modelled.  The validation and the names
(base.py:4679-4784) are those of `Model/Merge.lean`.
-/

namespace Nimble

section
variable {V : Type} [DecidableEq V]

/-! ## `Matrix` -/

/-- The points made of one left point and the right points matching it (matrix.py:336-361).  The assignment of line
357 is made to a copy (`ptL[matchingFtIdx[0]]` with a list of indices), so the left point stays as it is. -/
def matMatches (nan : V) (mL mR : List Nat) (ptL : List V) : List (List V) → Res (List (List V))
  | [] => .ok []
  | ptR :: rest =>
    if (mL.zip mR).all (pairOk nan ptL ptR) then
      (matMatches nan mL mR ptL rest).map (fun rows => (ptL ++ dropIdx ptR mR) :: rows)
    else .error .InvalidArgumentValue

/-- The points made of one left point (matrix.py:332-367). -/
def matPoint (nan : V) (point : MergeMode) (mL mR : List Nat) (extra : Nat) (ptL : List V)
    (mates : List (List V)) : Res (List (List V)) :=
  if mates = [] then
    .ok (if point = .intersection then [] else [ptL ++ List.replicate extra nan])
  else matMatches nan mL mR ptL mates

/-- The loop over the left points (matrix.py:327-367). -/
def matLeft (nan : V) (point : MergeMode) (mL mR : List Nat) (onL onR : Nat) (right : List (List V)) (extra : Nat) :
    List (List V) → Res (List (List V))
  | [] => .ok []
  | ptL :: left => do
    let here ← matPoint nan point mL mR extra ptL (mergeMates nan onR right (rowCell nan ptL onL))
    let more ← matLeft nan point mL mR onL onR right extra left
    return here ++ more

/-- matrix.py:322-379, for arrays of `wL` and `wR` columns: unlike lists, they have these also without rows. -/
def matCore (nan : V) (point : MergeMode) (mL mR : List Nat) (onL onR : Nat) (wL wR : Nat)
    (left right : List (List V)) : Res (List (List V)) := do
  let rows ← matLeft nan point mL mR onL onR right (wR - mR.length) left
  return rows ++
    if point = .union then
      (right.filter (fun row =>
        decide (rowCell nan row onR ∉ matchedTargets nan onL onR left right))).map (newRow nan mL mR wL)
    else []

/-- Merging on point names: as for `List`, but the common features of the left object too are taken in the order of
`matchingFtIdx` (matrix.py:294-320). -/
def matPrepNames (m : MergeVals V) (lN rN : List (Option String)) (feature : MergeMode)
    (left right : List (List V)) (mL mR : List Nat) : MergePrep V :=
  match feature with
  | .intersection =>
    ⟨withKeys m lN 0 (left.map (fun pt => pick pt mL)),
     withKeys m rN left.length (right.map (fun pt => pick pt mR)),
     List.range (mL.length + 1), List.range (mL.length + 1), 0, 0⟩
  | .left =>
    ⟨withKeys m lN 0 left,
     withKeys m rN left.length (right.map (fun pt => pick pt mR)),
     0 :: mL.map (· + 1), List.range (mR.length + 1), 0, 0⟩
  | .union =>
    ⟨withKeys m lN 0 left, withKeys m rN left.length right,
     0 :: mL.map (· + 1), 0 :: mR.map (· + 1), 0, 0⟩

/-- The number of columns of the prepared arrays, `nL` and `nR` features before (matrix.py:251-320). -/
def matWidths (feature : MergeMode) (keyed : Bool) (nL nR : Nat) (mL mR : List Nat) : Nat × Nat :=
  let k := if keyed then 1 else 0
  match feature with
  | .intersection => (mL.length + k, mR.length + k)
  | .left => (nL + k, mR.length + k)
  | .union => (nL + k, nR + k)

end

namespace Obj
variable {V : Type} [DecidableEq V]

/-- What the merge of two `Matrix` objects works on (matrix.py:249-320); merging on a feature is prepared as for
`List` (251-267). -/
def matPrep (m : MergeVals V) (self other : Obj V) (feature : MergeMode) (on : Option (Nat × Nat)) : MergePrep V :=
  let ns := matchingNames self.fts other.fts
  let mL := idxOfNames self.fts ns
  let mR := idxOfNames other.fts ns
  match on with
  | none => matPrepNames m self.pts.getNames other.pts.getNames feature self.data other.data mL mR
  | some ij => prepOn feature ij.1 ij.2 self.data other.data mL mR

/-- `_genericMergeFrontend` (base.py:4679-4784) with `_merge_implementation` of `Matrix` (matrix.py:247-390). -/
def mergeFrontMat (m : MergeVals V) (self other : Obj V) (point feature : MergeMode) (on : Option OnFt) :
    Obj V × Res Unit :=
  match self.mergeCheck m.nan other on with
  | .error e => (self, .error e)
  | .ok ij =>
    let p := self.matPrep m other feature ij
    let ns := matchingNames self.fts other.fts
    let w := matWidths feature ij.isNone self.fts.len other.fts.len (idxOfNames self.fts ns) (idxOfNames other.fts ns)
    match matCore m.nan point p.mL p.mR p.onL p.onR w.1 w.2 p.left p.right with
    | .error e => ({ self with data := p.left }, .error e)
    | .ok rows => self.mergeNamesOut other point feature ij.isNone rows (w.1 + (w.2 - p.mR.length))

end Obj

/-! ## `Sparse` -/

namespace Sp
variable {V : Type} [DecidableEq V]

/-- A `Sparse` object with its names. -/
structure SpObj (V : Type) where
  coo : Coo V
  pts : AxisSt
  fts : AxisSt

/-- The stored values in a column, in the order they are stored (`leftData[leftCol == onIdxL]`, sparse.py:675-676). -/
def column (ents : List (Ent V)) (j : Nat) : List V := (ents.filter (fun e => decide (e.col = j))).map Ent.val

/-- `ptL = np.zeros(w); ptL[leftCol[inRowL]] = leftData[inRowL]` (sparse.py:679-684). -/
def denseRow [Zero V] (w : Nat) (ents : List (Ent V)) (i : Nat) : List V :=
  (List.range w).map (fun j =>
    (((ents.filter (fun e => decide (e.row = i ∧ e.col = j))).getLast?).map Ent.val).getD 0)

/-- The entries with the keys as an additional first column (sparse.py:634-666). -/
def augment (keys : List V) (ents : List (Ent V)) : List (Ent V) :=
  keys.mapIdx (fun i v => ⟨i, 0, v⟩) ++ ents.map (fun e => { e with col := e.col + 1 })

/-- What the loops work on. -/
structure SpPrep (V : Type) where
  left : List (Ent V)
  right : List (Ent V)
  wL : Nat
  wR : Nat
  mL : List Nat
  mR : List Nat
  onL : Nat
  onR : Nat
  keyed : Bool

/-- The columns of a merged point that are kept (sparse.py:705-713, 726-731, 755-761). -/
def selectPt (feature : MergeMode) (p : SpPrep V) (pt : List V) : List V :=
  let q := match feature with
    | .intersection => pick pt p.mL
    | .left => pt.take p.wL
    | .union => pt
  if p.keyed then q.drop 1 else q

/-- The points made of the left point `i` and the right points `js` (sparse.py:678-720); as in `Matrix` the missing
values of the left point are not replaced (701 assigns to a copy). -/
def spMatches [Zero V] (nan : V) (feature : MergeMode) (p : SpPrep V) (i : Nat) : List Nat → Res (List (List V))
  | [] => .ok []
  | j :: js =>
    if (p.mL.zip p.mR).all (pairOk nan (denseRow p.wL p.left i) (denseRow p.wR p.right j)) then
      (spMatches nan feature p i js).map (fun rows =>
        selectPt feature p (denseRow p.wL p.left i ++ dropIdx (denseRow p.wR p.right j) p.mR) :: rows)
    else .error .InvalidArgumentValue

/-- The positions of the values equal to `target` (`np.where(...)`, sparse.py:676): places among the **stored** values
of the column, used as row indices. -/
def placesOf (nan : V) (col : List V) (target : V) : List Nat :=
  (List.range col.length).filter (fun j => pyEqv nan (rowCell nan col j) target)

/-- The points made of the left point `i` (sparse.py:675-736). -/
def spPoint [Zero V] (nan : V) (point feature : MergeMode) (p : SpPrep V) (i : Nat) (js : List Nat) :
    Res (List (List V)) :=
  if js = [] then
    .ok (if point = .intersection then []
      else [selectPt feature p (denseRow p.wL p.left i ++ List.replicate (p.wR - p.mR.length) nan)])
  else spMatches nan feature p i js

/-- The loop over the stored values of the left column (sparse.py:675-736); their places are used as row indices. -/
def spLeft [Zero V] (nan : V) (point feature : MergeMode) (p : SpPrep V) : List (V × Nat) → Res (List (List V))
  | [] => .ok []
  | t :: ts => do
    let here ← spPoint nan point feature p t.2 (placesOf nan (column p.right p.onR) t.1)
    let more ← spLeft nan point feature p ts
    return here ++ more

/-- The left values with a match (`matched`, sparse.py:714). -/
def spMatched (nan : V) (p : SpPrep V) : List V :=
  (column p.left p.onL).filter (fun t => ! (placesOf nan (column p.right p.onR) t).isEmpty)

/-- A right point without a match (sparse.py:739-768).  What is appended are the **stored** values of the right point
in the features that are not common (752-754). -/
def spNew [Zero V] (nan : V) (feature : MergeMode) (p : SpPrep V) (j : Nat) : List V :=
  selectPt feature p
    ((p.mL.zip p.mR).foldl (fun pt q => pt.set q.1 (rowCell nan (denseRow p.wR p.right j) q.2))
        (List.replicate p.wL nan)
      ++ (p.right.filter (fun e => decide (e.row = j ∧ e.col ∉ p.mR))).map Ent.val)

/-- All merged points (sparse.py:668-768). -/
def spRows [Zero V] (nan : V) (point feature : MergeMode) (p : SpPrep V) : Res (List (List V)) := do
  let rows ← spLeft nan point feature p (column p.left p.onL).zipIdx
  return rows ++
    if point = .union then
      ((column p.right p.onR).zipIdx.filter (fun t => decide (t.1 ∉ spMatched nan p))).map
        (fun t => spNew nan feature p t.2)
    else []

/-- `mergedData.astype(np.float64)` (sparse.py:779): a `ValueError` for what is no number.  Without data there is no
array (776-777), an `AttributeError`. -/
def toFloats (fl : V → Option V) (rows : List (List V)) : Res (List (List V)) :=
  if rows.flatten = [] then .error .AttributeError
  else match rows.mapM (fun r => r.mapM fl) with
    | some r => .ok r
    | none => .error .ValueError

/-- The number of features afterwards (sparse.py:770-775). -/
def spWidth (feature : MergeMode) (nL nR : Nat) (mL : List Nat) : Nat :=
  match feature with
  | .intersection => mL.length
  | .left => nL
  | .union => nL + (nR - mL.length)

/-- The prepared entries (sparse.py:614-666); `c` and `d` are sorted by feature. -/
def spPrep (m : MergeVals V) (lN rN : List (Option String)) (c d : Coo V) (mL mR : List Nat)
    (on : Option (Nat × Nat)) : SpPrep V :=
  match on with
  | some ij => ⟨c.ents, d.ents, c.cols, d.cols, mL, mR, ij.1, ij.2, false⟩
  | none =>
    ⟨augment ((List.range c.rows).map (ptKey m lN 0)) c.ents,
     augment ((List.range d.rows).map (ptKey m rN c.rows)) d.ents,
     c.cols + 1, d.cols + 1, 0 :: mL.map (· + 1), 0 :: mR.map (· + 1), 0, 0, true⟩

/-- The names afterwards (base.py:4727-4784), as in `Obj.mergeNamesOut`, for an object of `nP` points and `nF`
features. -/
def spNames (self other : Obj V) (point feature : MergeMode) (keyed : Bool) (nP nF : Nat) :
    (AxisSt × AxisSt) × Res Unit :=
  let pts : AxisSt := { self.pts with len := nP }
  let fts : AxisSt := { self.fts with len := nF }
  match Obj.setIfSome fts (self.mergedFtNames other feature) with
  | .error e => ((pts, fts), .error e)
  | .ok f =>
    if keyed then
      match pts.setNames (.list (self.mergedPtNames other point)) with
      | .error e => ((pts, f), .error e)
      | .ok p => ((p, f), .ok ())
    else (({ pts with tbl := none }, f), .ok ())

/-- The table of a coordinate matrix: the stored value, zero elsewhere. -/
def tableOf [Zero V] (c : Coo V) : List (List V) := (List.range c.rows).map (denseRow c.cols c.ents)

/-- The object as names and a table. -/
def SpObj.obj [Zero V] (s : SpObj V) : Obj V := ⟨tableOf s.coo, s.pts, s.fts⟩

/-- `_genericMergeFrontend` (base.py:4679-4784) with `_merge_implementation` of `Sparse` (sparse.py:612-781). -/
def mergeFrontSp [Zero V] (m : MergeVals V) (fl : V → Option V) (self other : SpObj V) (point feature : MergeMode)
    (on : Option OnFt) : SpObj V × Res Unit :=
  match self.obj.mergeCheck m.nan other.obj on with
  | .error e => (self, .error e)
  | .ok ij =>
    let c := self.coo.sortInternal .feature false
    let d := other.coo.sortInternal .feature false
    let ns := matchingNames self.fts other.fts
    let mL := idxOfNames self.fts ns
    let mR := idxOfNames other.fts ns
    match spRows m.nan point feature (spPrep m self.pts.getNames other.pts.getNames c d mL mR ij) with
    | .error e => ({ self with coo := c }, .error e)
    | .ok rows =>
      match toFloats fl rows with
      | .error e => ({ self with coo := c }, .error e)
      | .ok data =>
        let w := spWidth feature c.cols d.cols mL
        let out := spNames self.obj other.obj point feature ij.isNone rows.length w
        (⟨Coo.ofDense w data, out.1.1, out.1.2⟩, out.2)

end Sp
end Nimble
