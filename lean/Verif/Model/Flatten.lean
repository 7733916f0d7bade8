import Verif.Model.Obj

/-!
# `flatten` and `unflatten` (base.py:4005-4344, list.py:345-373)

Objects of more than two dimensions are not modelled, neither are arguments of another type than a
list of integers.
-/

namespace Nimble

/-- The argument `order` ('point' or 'feature'; other values are refused, base.py:4103-4107). -/
inductive Order where
  | point
  | feature
  deriving DecidableEq, Repr

/-- `'_PT#{}'.format(i)` for the names which are `None` (base.py:4014-4015, 4019-4022). -/
def flatLabels (pre : String) (names : List (Option String)) : List String :=
  names.zipIdx.map (fun p => p.1.getD (pre ++ toString p.2))

/-- `' | '.join([p, f])` (base.py:4023). -/
def joinName (p f : String) : String := p ++ " | " ++ f

/-- `_flattenNames(order)` (base.py:4005-4032). -/
def flattenNames (order : Order) (pNames fNames : List (Option String)) : List String :=
  match order with
  | .point => (flatLabels "_PT#" pNames).flatMap
      (fun p => (flatLabels "_FT#" fNames).map (fun f => joinName p f))
  | .feature => (flatLabels "_FT#" fNames).flatMap
      (fun f => (flatLabels "_PT#" pNames).map (fun p => joinName p f))

/-- `name.split(' | ')` (base.py:4148) on characters; `acc` holds the current part reversed. -/
def splitSep : List Char → List Char → List (List Char)
  | ' ' :: '|' :: ' ' :: rest, acc => acc.reverse :: splitSep rest []
  | c :: rest, acc => splitSep rest (c :: acc)
  | [], acc => [acc.reverse]

/-- One name: split in exactly two parts, or `None` is returned for all (base.py:4146-4152). -/
def splitName (name : Option String) : Option (String × String) :=
  match name with
  | none => none
  | some s => match splitSep s.toList [] with
    | [p, f] => some (String.ofList p, String.ofList f)
    | _ => none

/-- `name.startswith(pre)`. -/
def hasPrefix (pre s : String) : Bool := pre.toList.isPrefixOf s.toList

/-- One iteration of the loop collecting the names of one axis (base.py:4159-4165); the loop handles
both axes at once, here it is run once per axis. -/
def collectStep (pre : String) (acc : List (Option String)) (s : String) : List (Option String) :=
  if some s ∈ acc then acc
  else if hasPrefix pre s then acc ++ [none]
  else acc ++ [some s]

/-- The names of one axis; `None` when all are default (base.py:4154-4177). -/
def collectNames (pre : String) (l : List String) : Option (List (Option String)) :=
  let names := l.foldl (collectStep pre) []
  if names.all Option.isNone then none else some names

/-- `if pNames and len(pNames) != shape2D[0]: pNames = None` (base.py:4335-4338). -/
def dropWrongLength (n : Nat) (names : Option (List (Option String))) :
    Option (List (Option String)) :=
  names.bind (fun l => if l.length = n then some l else none)

namespace Obj
variable {V : Type}

/-- `_flatten_implementation(order)` (list.py:345-356). -/
def flatData (order : Order) (o : Obj V) : List V :=
  match order with
  | .point => o.data.flatten
  | .feature => (List.range o.fts.len).flatMap (fun j => o.data.filterMap (·[j]?))

/-- `flatten(order)` (base.py:4035-4129): the state afterwards and the outcome. -/
def flatten (order : Order) (o : Obj V) : Obj V × Res Unit :=
  if o.pts.len = 0 then (o, .error .ImproperObjectAction)
  else if o.fts.len = 0 then (o, .error .ImproperObjectAction)
  else
    let names : Assign :=
      if o.pts.namesCreated || o.fts.namesCreated then
        .list ((flattenNames order o.pts.getNames o.fts.getNames).map some)
      else .none
    let mid : Obj V := ⟨[o.flatData order], { o.pts with len := 1 },
      { o.fts with len := o.pts.len * o.fts.len }⟩
    match mid.fts.setNames names with
    | .error e => (mid, .error e)
    | .ok f => match mid.pts.setNames (.list [some "Flattened"]) with
      | .error e => ({ mid with fts := f }, .error e)
      | .ok p => ({ mid with fts := f, pts := p }, .ok ())

/-- `possibleNames` (base.py:4137-4143). -/
def possibleNames (o : Obj V) : Option (List (Option String)) :=
  if 1 < o.pts.len ∧ o.pts.namesCreated then some o.pts.getNames
  else if 1 < o.fts.len ∧ o.fts.namesCreated then some o.fts.getNames
  else none

/-- `_unflattenNames()` (base.py:4132-4179). -/
def unflattenNames (o : Obj V) : Option (List (Option String)) × Option (List (Option String)) :=
  match o.possibleNames.bind (fun l => l.mapM splitName) with
  | none => (none, none)
  | some pairs => (collectNames "_PT#" (pairs.map Prod.fst), collectNames "_FT#" (pairs.map Prod.snd))

/-- The checks of `unflatten` (base.py:4306-4326); `dims.prod` is `np.prod(dataDimensions)`. -/
def unflattenCheck (order : Order) (dims : List Int) (o : Obj V) : Res Unit :=
  if o.fts.len = 0 ∨ o.pts.len = 0 then .error .ImproperObjectAction
  else if o.pts.len ≠ 1 ∧ o.fts.len ≠ 1 then .error .ImproperObjectAction
  else if dims.length < 2 then .error .InvalidArgumentValue
  else if ((o.pts.len * o.fts.len : Nat) : Int) ≠ dims.prod then .error .InvalidArgumentValue
  else if 2 < dims.length ∧ order = .feature then .error .ImproperObjectAction
  else .ok ()

/-- `data[i::n]` (list.py:369). -/
def stride (l : List V) (i n : Nat) : List V :=
  (List.range ((l.length - i + n - 1) / n)).filterMap (fun k => l[i + k * n]?)

/-- `_unflatten_implementation(reshape, order)` (list.py:358-373). -/
def unflatData (order : Order) (n m : Nat) (flat : List V) : List (List V) :=
  match order with
  | .point => (List.range n).map (fun i => (flat.drop (i * m)).take m)
  | .feature => (List.range n).map (fun i => stride flat i n)

/-- `unflatten(dataDimensions, order)` (base.py:4184-4344).  The shape of the result is that of the
two dimensional data (`shape2D`); a negative dimension counts as 0 here. -/
def unflatten (order : Order) (dims : List Int) (o : Obj V) : Res (Obj V) := do
  o.unflattenCheck order dims
  let n := (dims.headD 0).toNat
  let m := dims.tail.prod.toNat
  let names := if dims.length = 2 then o.unflattenNames else (none, none)
  let p ← AxisSt.setNames ⟨n, o.pts.tbl⟩ (asAssign (dropWrongLength n names.1))
  let f ← AxisSt.setNames ⟨m, o.fts.tbl⟩ (asAssign (dropWrongLength m names.2))
  return ⟨unflatData order n m o.data.flatten, p, f⟩

end Obj
end Nimble
