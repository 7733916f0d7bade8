import Verif.Model.Obj

/-!
# `points.splitByCollapsingFeatures` and `points.combineByExpandingFeatures`

`nimble/core/data/points.py:1866-2210`, `listAxis.py:211-240`, `matrixAxis.py:198-216`,
`_dataHelpers.py:335-377` (the `Sparse` back end has its own code and is not modelled here).
Cells are compared with a lawful equality (a nan unequal to itself is outside the model).
-/

namespace Nimble

/-- What the code does to single cells: a name and an index stored as a cell, `str(cell)`,
`type(cell).__name__`, `np.nan`, the content of an object array before it is filled, and what
`np.array`/`np.repeat` makes of a nested list of cells (`List` only; a `Matrix` or `DataFrame`
holds arrays already, for which it is the identity). -/
structure CollapseOps (V : Type) where
  ofName : String → V
  ofIdx : Nat → V
  str : V → String
  typeName : V → String
  nan : V
  undef : V
  npArr : List (List V) → List (List V)

namespace Obj
variable {V : Type}

/-! ## splitByCollapsingFeatures -/

/-- `currFtNames` as it arrives in the new feature (points.py:1982-1987, `np.tile`
_dataHelpers.py:347-348): the name or, without a name, the index; numpy turns the indices into text
when there is also a name. -/
def nameCells (ops : CollapseOps V) (a : AxisSt) (cidx : List Nat) : List V :=
  if cidx.all (fun i => ((a.getNames[i]?).join).isNone) then cidx.map ops.ofIdx
  else cidx.map (fun (i : Nat) => match (a.getNames[i]?).join with
    | some s => ops.ofName s
    | none => ops.ofName (toString i))

/-- Assignment of one row to `w` columns of an array: numpy broadcasts a single value. -/
def fillRow (w : Nat) (r : List V) : Res (List V) :=
  if r.length = w then .ok r
  else match r with
    | [x] => .ok (List.replicate w x)
    | _ => .error .ValueError

/-- `mapM` for the rows. -/
def fillRows (w : Nat) : List (List V) → Res (List (List V))
  | [] => .ok []
  | r :: rs => do
    let r' ← fillRow w r
    let rs' ← fillRows w rs
    return r' :: rs'

/-- `fillArrayWithCollapsedFeatures` (_dataHelpers.py:335-353) for `n` points: the retained values
repeated, the names tiled and the collapsed values flattened side by side. -/
def collapsedRows (k n : Nat) (retained : List (List V)) (names : List V)
    (collapsed : List (List V)) : List (List V) :=
  List.zipWith (fun r p => r ++ [p.1, p.2]) (retained.flatMap (List.replicate k))
    (((List.replicate n names).flatten).zip collapsed.flatten)

/-- `f"{name}_{i}"` (points.py:2002-2004); a default name prints as `None`. -/
def splitNames (k : Nat) (names : List (Option String)) : List (Option String) :=
  names.flatMap (fun nm => (List.range k).map (fun (i : Nat) =>
    some (nm.getD "None" ++ "_" ++ toString i)))

/-- `points.splitByCollapsingFeatures(featuresToCollapse, featureForNames, featureForValues)`
(points.py:1975-2005): the state of the object afterwards and the outcome.  More collapsed
identifiers than features raise inside numpy without changing the object. -/
def splitByCollapsing (ops : CollapseOps V) (o : Obj V) (ids : List Ident) (ftNames ftValues : String) :
    Obj V × Res Unit :=
  match resolveIdents o.fts ids with                                             -- 1977-1978
  | .error e => (o, .error e)
  | .ok cidx =>
    let retain := (List.range o.fts.len).filter (fun i => i ∉ cidx)             -- 1979-1980
    let names := nameCells ops o.fts cidx                                       -- 1982-1987
    if o.fts.len < ids.length then (o, .error .ValueError)
    else
      let w := o.fts.len - ids.length                                           -- 1990
      match fillRows w (ops.npArr (o.data.map (fun r => pick r retain))) with
      | .error e => (o, .error e)
      | .ok rows =>
        let data := collapsedRows ids.length o.pts.len rows names
          (ops.npArr (o.data.map (fun r => pick r cidx)))                       -- 1992-1994
        let o1 : Obj V := ⟨data, ⟨o.pts.len * ids.length, o.pts.tbl⟩,
          ⟨w + 2, o.fts.tbl⟩⟩                                                    -- 1996
        let newNames := retain.map (fun i => (o.fts.getNames[i]?).join)
          ++ [some ftNames, some ftValues]                                      -- 1997-1998
        match o1.fts.setNames (.list newNames) with                             -- 1999
        | .error e => (o1, .error e)
        | .ok fts =>
          match o.pts.tbl with                                                  -- 2000-2005
          | none => ({ o1 with fts := fts }, .ok ())
          | some t =>
            match o1.pts.setNames (.list (splitNames ids.length t.inv)) with
            | .error e => ({ o1 with fts := fts }, .error e)
            | .ok pts => ({ o1 with fts := fts, pts := pts }, .ok ())

/-! ## combineByExpandingFeatures -/

variable [DecidableEq V]

/-- The local variables of the loop over the points (points.py:2136-2138). -/
structure ExpandSt (V : Type) where
  unique : PyDict (List V) (PyDict V (List V)) := []
  pNames : List (Option String) := []
  uniqueNames : List V := []

/-- One iteration (points.py:2139-2155): `key` the values of the uncombined features, `nm` the value
of the feature with the names, `vals` those of the features with values. -/
def expandStep (st : ExpandSt V) (pname : Option String) (key : List V) (nm : V) (vals : List V) :
    Res (ExpandSt V) :=
  let inner := (PyDict.get? st.unique key).getD []                              -- 2141-2142
  let pNames := if PyDict.has st.unique key then st.pNames else st.pNames ++ [pname]
  if PyDict.has inner nm then .error .ImproperObjectAction                      -- 2146-2151
  else .ok {
    unique := PyDict.set st.unique key (PyDict.set inner nm vals)               -- 2155
    pNames := pNames
    uniqueNames := if nm ∈ st.uniqueNames then st.uniqueNames
      else st.uniqueNames ++ [nm] }                                             -- 2152-2153

/-- The loop (points.py:2139-2155) over the points: name and row. -/
def expandLoop (uncombined : List Nat) (namesIdx : Nat) (valuesIdx : List Nat) :
    List (Option String × List V) → ExpandSt V → Res (ExpandSt V)
  | [], st => .ok st
  | (pname, row) :: rest, st =>
    match row[namesIdx]? with
    | none => .error .IndexError  -- the index has been validated
    | some nm => do
      let st' ← expandStep st pname (pick row uncombined) nm (pick row valuesIdx)
      expandLoop uncombined namesIdx valuesIdx rest st'

/-- `row[start:stop] = src` on a numpy row: the slice is clipped to the row, a single value is
broadcast. -/
def assignSlice (row : List V) (start stop : Nat) (src : List V) : Res (List V) := do
  let a := min start row.length
  let b := min stop row.length
  let s ← fillRow (b - a) src
  return row.take a ++ s ++ row.drop (max a b)

/-- The inner loop over the names (_dataHelpers.py:367-374), `j` counting from the current name. -/
def fillNames (ops : CollapseOps V) (namesIdx numExpanded : Nat) (inner : PyDict V (List V)) :
    Nat → List V → List V → Res (List V)
  | _, [], row => .ok row
  | j, nm :: rest, row => do
    let start := namesIdx + j * numExpanded
    let src := (PyDict.get? inner nm).getD (List.replicate numExpanded ops.nan)
    let row' ← assignSlice row start (start + numExpanded) src
    fillNames ops namesIdx numExpanded inner (j + 1) rest row'

/-- One row of `fillArrayWithExpandedFeatures` (_dataHelpers.py:365-375). -/
def fillExpanded (ops : CollapseOps V) (namesIdx numExpanded numRet : Nat) (uniqueNames : List V)
    (key : List V) (inner : PyDict V (List V)) : Res (List V) := do
  let row0 := List.replicate numRet ops.undef                                   -- 362
  let row1 ← assignSlice row0 0 namesIdx (key.take namesIdx)                    -- 366
  let row2 ← fillNames ops namesIdx numExpanded inner 0 uniqueNames row1        -- 367-374
  assignSlice row2 (namesIdx + uniqueNames.length * numExpanded) numRet (key.drop namesIdx) -- 375

/-- All rows (_dataHelpers.py:365-375). -/
def fillAll (ops : CollapseOps V) (namesIdx numExpanded numRet : Nat) (uniqueNames : List V) :
    PyDict (List V) (PyDict V (List V)) → Res (List (List V))
  | [] => .ok []
  | (key, inner) :: rest => do
    let r ← fillExpanded ops namesIdx numExpanded numRet uniqueNames key inner
    let rs ← fillAll ops namesIdx numExpanded numRet uniqueNames rest
    return r :: rs

/-- The names' texts; duplicates are refused or get the type appended (points.py:2162-2177). -/
def prefixes (ops : CollapseOps V) (modify : Bool) (uniqueNames : List V) : Res (List String) :=
  let ps := uniqueNames.map ops.str
  if ps.Nodup then .ok ps
  else if !modify then .error .ImproperObjectAction
  else .ok (uniqueNames.map (fun n =>
    if ps.count (ops.str n) > 1 then ops.str n ++ "(" ++ ops.typeName n ++ ")" else ops.str n))

/-- The suffix of a feature with values given by an identifier (points.py:2190-2196): a string as it
is; an index as its name when the object has feature names (`None` cannot be appended to a text and
raises `TypeError`) and as its digits otherwise. -/
def suffixOf (a : AxisSt) : Ident → Res String
  | .str s => .ok s
  | id =>
    match a.getIndex id with
    | .error e => .error e
    | .ok i =>
      if a.namesCreated then
        match (a.getNames[i.toNat]?).join with
        | some s => .ok s
        | none => .error .TypeError
      else match id with
        | .int j => .ok (toString j)
        | _ => .ok (toString i)

/-- All suffixes. -/
def suffixes (a : AxisSt) : List Ident → Res (List String)
  | [] => .ok []
  | id :: ids => do
    let s ← suffixOf a id
    let r ← suffixes a ids
    return s :: r

/-- The names of the expanded features (points.py:2184-2199). -/
def expandedNames (a : AxisSt) (ps : List String) (valueIds : List Ident) : Res (List String) :=
  if valueIds.length > 1 then do
    let ss ← suffixes a valueIds
    return ps.flatMap (fun p => ss.map (fun s => p ++ "_" ++ s))
  else .ok ps

/-- `features.setNames(name, oldIdentifiers=namesIdx + i)` one after the other
(points.py:2207-2208). -/
def nameOneByOne (a : AxisSt) : Nat → List String → AxisSt × Res Unit
  | _, [] => (a, .ok ())
  | i, s :: rest =>
    match a.setNamesPartial [some s] [.int i] with
    | (a', .error e) => (a', .error e)
    | (a', .ok ()) => nameOneByOne a' (i + 1) rest

/-- The names of the features at the end (points.py:2201-2208). -/
def finalFeatureNames (a : AxisSt) (old : AxisSt) (uncombined : List Nat) (namesIdx : Nat)
    (new : List String) : AxisSt × Res Unit :=
  match old.tbl with
  | some t =>
    let kept := uncombined.map (fun i => (t.inv[i]?).join)
    match a.setNames (.list (kept.take namesIdx ++ new.map some ++ kept.drop namesIdx)) with
    | .error e => (a, .error e)
    | .ok a' => (a', .ok ())
  | none => nameOneByOne a namesIdx new

/-- `points.combineByExpandingFeatures(featureWithFeatureNames, featuresWithValues,
modifyDuplicateFeatureNames)` (points.py:2126-2210): state afterwards and outcome. -/
def combineByExpanding (ops : CollapseOps V) (o : Obj V) (namesId : Ident) (valueIds : List Ident)
    (modify : Bool := false) : Obj V × Res Unit :=
  match o.fts.getIndex namesId, resolveIdents o.fts valueIds with               -- 2126-2130
  | .error e, _ => (o, .error e)
  | .ok _, .error e => (o, .error e)
  | .ok ni, .ok vidx =>
    let namesIdx := ni.toNat
    let uncombined := (List.range o.fts.len).filter (fun i => i ∉ namesIdx :: vidx) -- 2131-2133
    -- repeated features with values: `row[valuesIdx]` refuses them for the first point (2155)
    if ¬ vidx.Nodup ∧ 0 < o.pts.len then (o, .error .KeyError)
    else
    match expandLoop uncombined namesIdx vidx (o.pts.getNames.zip o.data) {} with
    | .error e => (o, .error e)
    | .ok st =>
      let e := valueIds.length
      let numRet := o.fts.len + st.uniqueNames.length * e - (1 + e)             -- 2157-2160
      match prefixes ops modify st.uniqueNames with                             -- 2162-2177
      | .error x => (o, .error x)
      | .ok ps =>
        match fillAll ops namesIdx e numRet st.uniqueNames st.unique with       -- 2179-2180
        | .error x => (o, .error x)
        | .ok data =>
          let o1 : Obj V := ⟨data, ⟨st.unique.length, o.pts.tbl⟩, ⟨numRet, o.fts.tbl⟩⟩ -- 2182
          match expandedNames o.fts ps valueIds with                            -- 2184-2199
          | .error x => (o1, .error x)
          | .ok new =>
            match finalFeatureNames o1.fts o.fts uncombined namesIdx new with   -- 2201-2208
            | (fts, .error x) => ({ o1 with fts := fts }, .error x)
            | (fts, .ok ()) =>
              match o.pts.tbl with                                              -- 2209-2210
              | none => ({ o1 with fts := fts }, .ok ())
              | some _ =>
                match o1.pts.setNames (.list st.pNames) with
                | .error x => ({ o1 with fts := fts }, .error x)
                | .ok pts => ({ o1 with fts := fts, pts := pts }, .ok ())

end Obj
end Nimble
