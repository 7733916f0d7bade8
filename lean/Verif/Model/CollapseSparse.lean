import Verif.Model.Collapse
import Verif.Model.MergeReps
import Mathlib.Data.List.Sort

/-!
# `splitByCollapsingFeatures` and `combineByExpandingFeatures` of `Sparse` objects

`nimble/core/data/sparseAxis.py:391-449`; what surrounds them (points.py:1975-2005, 2126-2210) is the code modelled in
`Model/Collapse`.  The dtype of the result is `object`: cells are kept as they are.
-/

namespace Nimble.Sp
variable {V : Type}

/-! ## splitByCollapsingFeatures -/

/-- `np.argsort(l)` for distinct numbers (sparseAxis.py:406). -/
def argsort (l : List Nat) : List Nat :=
  (List.range l.length).insertionSort (fun a b => l[a]?.getD 0 ≤ l[b]?.getD 0)

/-- `data[(row == ptIdx) & inIdxs]` (sparseAxis.py:401-405). -/
def rowVals (ents : List (Ent V)) (pt : Nat) (idxs : List Nat) : List V :=
  (ents.filter (fun e => decide (e.row = pt ∧ e.col ∈ idxs))).map Ent.val

/-- `l[is]` for an array of indices. -/
def takeIdx (l : List V) : List Nat → Res (List V)
  | [] => .ok []
  | i :: is =>
    match l[i]? with
    | none => .error .IndexError
    | some v => do
      let r ← takeIdx l is
      return v :: r

/-- The entries of one new point (sparseAxis.py:409-417): the retained values from the first feature on, the name and
the value in the last two. -/
def pointEnts (i w : Nat) (retain : List V) (nm v : V) : List (Ent V) :=
  retain.zipIdx.map (fun p => ⟨i, p.2, p.1⟩) ++ [⟨i, w, nm⟩, ⟨i, w + 1, v⟩]

/-- The loop over the collapsed values of a point (sparseAxis.py:408-417). -/
def splitEnts (pt k w : Nat) (retain names values : List V) : List (Ent V) :=
  (names.zip values).zipIdx.flatMap (fun p => pointEnts (pt * k + p.2) w retain p.1.1 p.1.2)

/-- The loop over the points (sparseAxis.py:400-417). -/
def splitLoop (ents : List (Ent V)) (cidx retain : List Nat) (names : List V) (k w : Nat) : List Nat → Res (List (Ent V))
  | [] => .ok []
  | pt :: pts => do
    let values ← takeIdx (rowVals ents pt cidx) (argsort cidx)
    let rest ← splitLoop ents cidx retain names k w pts
    return splitEnts pt k w (rowVals ents pt retain) names values ++ rest

/-- `currFtNames` (points.py:1982-1987): the name or, without a name, the index. -/
def nameCellsSp (ops : CollapseOps V) (a : AxisSt) (cidx : List Nat) : List V :=
  cidx.map (fun (i : Nat) => match (a.getNames[i]?).join with
    | some s => ops.ofName s
    | none => ops.ofIdx i)

/-- `_splitByCollapsingFeatures_implementation` of `SparsePoints` (sparseAxis.py:391-424); `w + 2` features. -/
def splitData (c : Coo V) (cidx retain : List Nat) (names : List V) (w : Nat) : Res (Coo V) := do
  let ents ← splitLoop c.ents cidx retain names cidx.length w (List.range c.rows)
  return ⟨c.rows * cidx.length, w + 2, ents, none, none⟩

/-- `points.splitByCollapsingFeatures` (points.py:1975-2005) of a `Sparse` object. -/
def splitByCollapsing (ops : CollapseOps V) (o : SpObj V) (ids : List Ident) (ftNames ftValues : String) :
    SpObj V × Res Unit :=
  match resolveIdents o.fts ids with
  | .error e => (o, .error e)
  | .ok cidx =>
    let c := o.coo.sortInternal .point false
    let retain := (List.range o.fts.len).filter (fun i => i ∉ cidx)
    match splitData c cidx retain (nameCellsSp ops o.fts cidx) (o.fts.len - ids.length) with
    | .error e => ({ o with coo := c }, .error e)
    | .ok c1 =>
      let o1 : SpObj V := ⟨c1, ⟨o.pts.len * ids.length, o.pts.tbl⟩, ⟨o.fts.len - ids.length + 2, o.fts.tbl⟩⟩
      let newNames := retain.map (fun i => (o.fts.getNames[i]?).join) ++ [some ftNames, some ftValues]
      match o1.fts.setNames (.list newNames) with
      | .error e => (o1, .error e)
      | .ok fts =>
        match o.pts.tbl with
        | none => ({ o1 with fts := fts }, .ok ())
        | some t =>
          match o1.pts.setNames (.list (Obj.splitNames ids.length t.inv)) with
          | .error e => ({ o1 with fts := fts }, .error e)
          | .ok pts => ({ o1 with fts := fts, pts := pts }, .ok ())

/-! ## combineByExpandingFeatures -/

variable [DecidableEq V]

/-- `tmpPoint` (sparseAxis.py:433-440). -/
def expandPoint (nan : V) (namesIdx numExpanded : Nat) (uniqueNames : List V) (p : List V × PyDict V (List V)) : List V :=
  p.1.take namesIdx ++
    uniqueNames.flatMap (fun nm => (PyDict.get? p.2 nm).getD (List.replicate numExpanded nan)) ++ p.1.drop namesIdx

/-- The entries of the rows (sparseAxis.py:441-443): every cell is stored. -/
def rowEnts (rows : List (List V)) : List (Ent V) :=
  rows.zipIdx.flatMap (fun p => p.1.zipIdx.map (fun q => ⟨p.2, q.2, q.1⟩))

/-- `_combineByExpandingFeatures_implementation` of `SparsePoints` (sparseAxis.py:426-449). -/
def expandData (nan : V) (namesIdx numExpanded numRet : Nat) (st : Obj.ExpandSt V) : Coo V :=
  ⟨st.unique.length, numRet, rowEnts (st.unique.map (expandPoint nan namesIdx numExpanded st.uniqueNames)), none, none⟩

/-- `points.combineByExpandingFeatures` (points.py:2126-2210) of a `Sparse` object. -/
def combineByExpanding [Zero V] (ops : CollapseOps V) (o : SpObj V) (namesId : Ident) (valueIds : List Ident)
    (modify : Bool := false) : SpObj V × Res Unit :=
  match o.fts.getIndex namesId, resolveIdents o.fts valueIds with
  | .error e, _ => (o, .error e)
  | .ok _, .error e => (o, .error e)
  | .ok ni, .ok vidx =>
    let namesIdx := ni.toNat
    let uncombined := (List.range o.fts.len).filter (fun i => i ∉ namesIdx :: vidx)
    if ¬ vidx.Nodup ∧ 0 < o.pts.len then (o, .error .KeyError)
    else
    match Obj.expandLoop uncombined namesIdx vidx (o.pts.getNames.zip o.obj.data) {} with
    | .error e => (o, .error e)
    | .ok st =>
      let e := valueIds.length
      let numRet := o.fts.len + st.uniqueNames.length * e - (1 + e)
      match Obj.prefixes ops modify st.uniqueNames with
      | .error x => (o, .error x)
      | .ok ps =>
        let o1 : SpObj V := ⟨expandData ops.nan namesIdx e numRet st, ⟨st.unique.length, o.pts.tbl⟩, ⟨numRet, o.fts.tbl⟩⟩
        match Obj.expandedNames o.fts ps valueIds with
        | .error x => (o1, .error x)
        | .ok new =>
          match Obj.finalFeatureNames o1.fts o.fts uncombined namesIdx new with
          | (fts, .error x) => ({ o1 with fts := fts }, .error x)
          | (fts, .ok ()) =>
            match o.pts.tbl with
            | none => ({ o1 with fts := fts }, .ok ())
            | some _ =>
              match o1.pts.setNames (.list st.pNames) with
              | .error x => ({ o1 with fts := fts }, .error x)
              | .ok pts => ({ o1 with fts := fts, pts := pts }, .ok ())

end Nimble.Sp
