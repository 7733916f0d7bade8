import Verif.Model.Merge
import Mathlib.Data.List.Sort

/-!
# `merge` of two DataFrame objects (dataframe.py:326-402)

`DataFrame._merge_implementation` leaves the join to `pandas.DataFrame.merge` (pandas/core/reshape/merge.py,
not part of the repository), whose documented behaviour is written down here: 'left' and 'inner' keep the
order of the keys of the caller, 'outer' sorts the keys; missing places are filled with the missing
value; keys which are equal, also two missing ones, match.  The columns are then compared and combined
by nimble, which is modelled as it is written.  `self._data.iloc[:, left][nansL] = …` (387) is taken to
write through to the frame, as it does in pandas without copy-on-write.  The conversion of integer
columns to float is not visible in `V`.  `merge` of pandas refuses (from version 2.0) when the suffixes
`_x`, `_y` it adds to the names of common columns produce a name which is there already; that refusal is
not modelled.
-/

namespace Nimble

/-- A label of the index of the frames during the merge: a point name, or a number for a point without
name (dataframe.py:355-359). -/
inductive PdKey where
  | idx (n : Nat)
  | name (s : String)
  deriving DecidableEq, Repr

/-- One label (dataframe.py:355-359). -/
def pdKey (add : Nat) (p : Option String × Nat) : PdKey :=
  match p.1 with
  | some s => .name s
  | none => .idx (p.2 + add)

/-- `[i + add if n is None else n for i, n in enumerate(names)]` (dataframe.py:355-359). -/
def pdIndex (names : List (Option String)) (add : Nat) : List PdKey := names.zipIdx.map (pdKey add)

/-- The order of labels.  A number and a name cannot be compared: the order between them is not used
(`pdSorts`). -/
def PdKey.le : PdKey → PdKey → Bool
  | .idx a, .idx b => decide (a ≤ b)
  | .name s, .name t => decide (s ≤ t)
  | .idx _, .name _ => true
  | .name _, .idx _ => false

def PdKey.isName : PdKey → Bool
  | .name _ => true
  | .idx _ => false

section
variable {K : Type} [DecidableEq K]

/-- The positions of a key in a list of keys. -/
def pdFind (kr : List K) (k : K) : List Nat :=
  (List.range kr.length).filter (fun j => decide (kr[j]? = some k))

/-- The rows of `left.merge(right, how)` for the key at position `i`: with each row of the right frame
with this key, or alone. -/
def pdOf (how : MergeMode) (kr : List K) (k : K) (i : Nat) : List (Option Nat × Option Nat) :=
  if pdFind kr k = [] then (if how = .intersection then [] else [(some i, none)])
  else (pdFind kr k).map (fun j => (some i, some j))

/-- The pairs of rows of `left.merge(right, how)` in the order of the left frame; the rows which are only
in the right frame come last (how = 'outer'). -/
def pdJoin (how : MergeMode) (kl kr : List K) : List (Option Nat × Option Nat) :=
  kl.zipIdx.flatMap (fun p => pdOf how kr p.1 p.2) ++
    if how = .union then
      ((List.range kr.length).filter (fun j => decide (∀ k ∈ kl, kr[j]? ≠ some k))).map
        (fun j => (none, some j))
    else []

/-- The key of a pair of rows. -/
def pdPairKey (kl kr : List K) (p : Option Nat × Option Nat) : Option K :=
  match p.1 with
  | some i => kl[i]?
  | none => p.2.bind (fun j => kr[j]?)

end

/-- Whether `Index.union` sorts: not for equal or empty indexes, and not when labels cannot be
compared (documentation of `pandas.Index.union`, sort=None). -/
def pdSorts (kl kr : List PdKey) : Bool :=
  decide (kl ≠ kr ∧ kl ≠ [] ∧ kr ≠ []) &&
    ((kl ++ kr).all PdKey.isName || (kl ++ kr).all (fun k => ! k.isName))

/-- The order of two labels; every pair of rows has one. -/
def pdLeOpt : Option PdKey → Option PdKey → Bool
  | some a, some b => a.le b
  | some _, none => false
  | none, _ => true

/-- The order of two pairs by their labels. -/
def pdBefore (kl kr : List PdKey) (p q : Option Nat × Option Nat) : Prop :=
  pdLeOpt (pdPairKey kl kr p) (pdPairKey kl kr q) = true

instance (kl kr : List PdKey) (p q : Option Nat × Option Nat) : Decidable (pdBefore kl kr p q) := by
  unfold pdBefore; infer_instance

/-- The pairs of rows of `left.merge(right, how, left_index=True, right_index=True)`
(dataframe.py:365-366). -/
def pdIndexJoin (how : MergeMode) (kl kr : List PdKey) : List (Option Nat × Option Nat) :=
  if how = .union ∧ pdSorts kl kr = true then (pdJoin how kl kr).insertionSort (pdBefore kl kr)
  else pdJoin how kl kr

section
variable {V : Type} [DecidableEq V]

/-- A row of the merged frame, for a join on the index: the columns of the left frame, then those of the
right one. -/
def pdRow (nan : V) (nL nR : Nat) (l r : Option (List V)) : List V :=
  l.getD (List.replicate nL nan) ++ r.getD (List.replicate nR nan)

/-- A row of the merged frame, for a join on a column (dataframe.py:370): the column is there once, on the
left, and has the value of the right row if there is no left one. -/
def pdRowOn (nan : V) (nL nR onL onR : Nat) (l r : Option (List V)) : List V :=
  l.getD ((List.replicate nL nan).set onL (rowCell nan (r.getD []) onR)) ++
    (r.getD (List.replicate nR nan)).eraseIdx onR

/-- `acceptableValues` for one matching feature (dataframe.py:386-389), for all rows. -/
def dfColOk (nan : V) (a b : Nat) (rows : List (List V)) : Bool :=
  rows.all (fun r => pairOk nan r r (a, b))

/-- The missing values of the left column are replaced by the ones of the right column, in one row
(dataframe.py:394-396). -/
def dfFillRow (nan : V) (a b : Nat) (r : List V) : List V :=
  if rowCell nan r a = nan then r.set a (rowCell nan r b) else r

/-- The loop over the matching features (dataframe.py:376-397), with the positions of the columns in the
merged frame: the frame afterwards and the outcome. -/
def dfLoop (nan : V) : List (Nat × Nat) → List (List V) → List (List V) × Res Unit
  | [], rows => (rows, .ok ())
  | p :: ps, rows =>
    if dfColOk nan p.1 p.2 rows then dfLoop nan ps (rows.map (dfFillRow nan p.1 p.2))
    else (rows, .error .InvalidArgumentValue)

/-- The positions of a right column in the merged frame, for a join on a column (dataframe.py:380-384).
`onR` is its index in the right frame; the left index of it is `onL`. -/
def dfOnPairs (nL onL onR : Nat) (ps : List (Nat × Nat)) : List (Nat × Nat) :=
  (ps.filter (fun p => decide (p.1 ≠ onL))).map
    (fun p => (p.1, if p.2 + nL > onR + nL then p.2 + nL - 1 else p.2 + nL))

/-- The left columns used (dataframe.py:339-340). -/
def dfLeft (feature : MergeMode) (mL : List Nat) (row : List V) : List V :=
  match feature with
  | .intersection => pick row mL
  | _ => row

/-- The right columns used (dataframe.py:341, 345). -/
def dfRight (feature : MergeMode) (mR : List Nat) (row : List V) : List V :=
  match feature with
  | .union => row
  | _ => pick row mR

/-- `matchingFtIdx[0]` (dataframe.py:342). -/
def dfIdxL (feature : MergeMode) (mL : List Nat) : List Nat :=
  match feature with
  | .intersection => List.range mL.length
  | _ => mL

/-- `matchingFtIdx[1]` (dataframe.py:343, 346). -/
def dfIdxR (feature : MergeMode) (mR : List Nat) : List Nat :=
  match feature with
  | .union => mR
  | _ => List.range mR.length

/-- The number of left columns (dataframe.py:348). -/
def dfNumL (feature : MergeMode) (n : Nat) (mL : List Nat) : Nat :=
  match feature with
  | .intersection => mL.length
  | _ => n

/-- The number of right columns. -/
def dfNumR (feature : MergeMode) (n : Nat) (mR : List Nat) : Nat :=
  match feature with
  | .union => n
  | _ => mR.length

/-- `columns.get_loc(onFeature)` in the left frame, after the columns were chosen (dataframe.py:368);
`i` is the index before. -/
def dfLocL (feature : MergeMode) (mL : List Nat) (i : Nat) : Nat :=
  match feature with
  | .intersection => mL.idxOf i
  | _ => i

/-- The same for the right frame (dataframe.py:369). -/
def dfLocR (feature : MergeMode) (mR : List Nat) (i : Nat) : Nat :=
  match feature with
  | .union => i
  | _ => mR.idxOf i

end

namespace Obj
variable {V : Type} [DecidableEq V]

/-- The names after the merge (base.py:4727-4784), for the object with the merged frame. -/
def dfNames (self other : Obj V) (point feature : MergeMode) (keyed : Bool) (mid : Obj V) :
    Obj V × Res Unit :=
  match setIfSome mid.fts (self.mergedFtNames other feature) with
  | .error e => (mid, .error e)
  | .ok f =>
    if keyed then
      match mid.pts.setNames (.list (self.mergedPtNames other point)) with
      | .error e => ({ mid with fts := f }, .error e)
      | .ok p => ({ mid with fts := f, pts := p }, .ok ())
    else ({ mid with fts := f, pts := { mid.pts with tbl := none } }, .ok ())

/-- The merged frame and the pairs of columns which match in it (dataframe.py:348-384).  `ord` is the order
in which pandas puts the rows of an outer join on a column. -/
def dfFrame (nan : V) (ord : List (Option Nat × Option Nat) → List (Option Nat × Option Nat))
    (self other : Obj V) (point feature : MergeMode) (on : Option (Nat × Nat)) :
    List (List V) × List (Nat × Nat) :=
  let ns := matchingNames self.fts other.fts
  let mL := idxOfNames self.fts ns
  let mR := idxOfNames other.fts ns
  let nL := dfNumL feature self.fts.len mL
  let nR := dfNumR feature other.fts.len mR
  let left := self.data.map (dfLeft feature mL)
  let right := other.data.map (dfRight feature mR)
  let ps := (dfIdxL feature mL).zip (dfIdxR feature mR)
  match on with
  | none =>
    ((pdIndexJoin point (pdIndex self.pts.getNames 0) (pdIndex other.pts.getNames self.pts.len)).map
        (fun p => pdRow nan nL nR (p.1.bind (left[·]?)) (p.2.bind (right[·]?))),
      ps.map (fun p => (p.1, p.2 + nL)))
  | some ij =>
    let onL := dfLocL feature mL ij.1
    let onR := dfLocR feature mR ij.2
    let js := pdJoin point (left.map (fun r => rowCell nan r onL)) (right.map (fun r => rowCell nan r onR))
    ((if point = .union then ord js else js).map
        (fun p => pdRowOn nan nL nR onL onR (p.1.bind (left[·]?)) (p.2.bind (right[·]?))),
      dfOnPairs nL onL onR ps)

/-- The rest of `_merge_implementation` (dataframe.py:376-402): compare, combine, drop the columns of the
right frame; a refusal leaves the merged frame in the object. -/
def dfFinish (nan : V) (self other : Obj V) (point feature : MergeMode) (keyed : Bool) (nF : Nat)
    (frame : List (List V) × List (Nat × Nat)) : Obj V × Res Unit :=
  match dfLoop nan frame.2 frame.1 with
  | (rows, .error e) => ({ self with data := rows }, .error e)
  | (rows, .ok ()) =>
    self.dfNames other point feature keyed
      ⟨rows.map (fun r => dropIdx r (frame.2.map Prod.snd)), { self.pts with len := rows.length },
        { self.fts with len := nF }⟩

/-- `numFeatures` (dataframe.py:399). -/
def dfNumFeatures (self other : Obj V) (feature : MergeMode) : Nat :=
  let ns := matchingNames self.fts other.fts
  let mL := idxOfNames self.fts ns
  let mR := idxOfNames other.fts ns
  dfNumL feature self.fts.len mL + dfNumR feature other.fts.len mR - (dfIdxR feature mR).length

/-- `_genericMergeFrontend(other, point, feature, onFeature)` (base.py:4679-4784) with
`_merge_implementation` of DataFrame (dataframe.py:326-402). -/
def mergeFrontDf (nan : V) (ord : List (Option Nat × Option Nat) → List (Option Nat × Option Nat))
    (self other : Obj V) (point feature : MergeMode) (on : Option OnFt) : Obj V × Res Unit :=
  match self.mergeCheck nan other on with
  | .error e => (self, .error e)
  | .ok ij =>
    self.dfFinish nan other point feature ij.isNone (self.dfNumFeatures other feature)
      (self.dfFrame nan ord other point feature ij)

/-- `merge(other, point, feature, onFeature)` without 'strict' (base.py:4577-4582) of DataFrame objects. -/
def mergeDf (nan : V) (ord : List (Option Nat × Option Nat) → List (Option Nat × Option Nat))
    (le : V → V → Bool) (self other : Obj V) (point feature : MergeMode) (on : Option OnFt) :
    Obj V × Res Unit :=
  let out := self.mergeFrontDf nan ord other point feature on
  match out.2, on with
  | .ok (), some f =>
    if point = .union ∧ onTruthy on then sortBy le false out.1 .point [onIdent f] else out
  | _, _ => out

end Obj
end Nimble
