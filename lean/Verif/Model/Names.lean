import Verif.Py

/-!
# Axis names (`nimble/core/data/axis.py`)

An axis of a data object keeps its names twice: `self.names`, a dict from name to index, and
`self.namesInverse`, the list of names (`None` for a default name).  Both are `None` until names
are created.
-/

namespace Nimble

/-- The pair (`self.names`, `self.namesInverse`) when names exist (axis.py:98-106). -/
structure NameTable where
  names : PyDict String Nat
  inv : List (Option String)
  deriving DecidableEq, Repr

/-- The name state of one axis together with its length (`Axis.__len__`, axis.py:110-113; the
length is the entry of `_base.shape` for this axis).  `tbl = none` models
`self.names is None and self.namesInverse is None`. -/
structure AxisSt where
  len : Nat
  tbl : Option NameTable
  deriving DecidableEq, Repr

/-- `_namesCreated` (axis.py:1014-1015). -/
def AxisSt.namesCreated (a : AxisSt) : Bool := a.tbl.isSome

/-- The table installed by `_setAllDefault` (axis.py:1017-1019). -/
def defaultTable (n : Nat) : NameTable := ⟨[], List.replicate n none⟩

/-- `if not self._namesCreated(): self._setAllDefault()` — the lazy creation performed by every
name reader (axis.py:186-187, 192-193, 1027-1028). -/
def AxisSt.touch (a : AxisSt) : AxisSt :=
  match a.tbl with
  | none => { a with tbl := some (defaultTable a.len) }
  | some _ => a

/-- Value returned by `_getNames` (axis.py:191-195): `namesInverse` after `touch`. -/
def AxisSt.getNames (a : AxisSt) : List (Option String) :=
  match a.tbl with
  | none => List.replicate a.len none
  | some t => t.inv

/-- Value returned by `_getNamesNoGeneration` (axis.py:1021-1024). -/
def AxisSt.getNamesNoGen (a : AxisSt) : Option (List (Option String)) := a.tbl.map (·.inv)

/-- Value returned by `_getName(index)` for a non-negative index (axis.py:185-189). -/
def AxisSt.getName (a : AxisSt) (i : Nat) : Res (Option String) :=
  match a.getNames[i]? with
  | some n => .ok n
  | none => .error .IndexError

/-- `_anyDefaultNames` (axis.py:376-377). -/
def AxisSt.anyDefaultNames (a : AxisSt) : Bool :=
  match a.tbl with
  | none => true
  | some t => decide (t.names.length < a.len)

/-- `_allDefaultNames` (axis.py:379-380): `not self.names`. -/
def AxisSt.allDefaultNames (a : AxisSt) : Bool :=
  match a.tbl with
  | none => true
  | some t => t.names.isEmpty

/-- The loop turning a list of names into the dict (axis.py:233-239).  `names` never contains
`None`, so `name in names` can only be true for strings. -/
def listToNames : Nat → List (Option String) → PyDict String Nat → Res (PyDict String Nat)
  | _, [], d => .ok d
  | i, none :: l, d => listToNames (i + 1) l d
  | i, some s :: l, d =>
    if PyDict.has d s then .error .InvalidArgumentValue
    else listToNames (i + 1) l (PyDict.set d s i)

/-- The loop checking a name dict and filling the reverse map (axis.py:247-258).  Names are
strings and values are integers here (other types are refused by the code and not modelled). -/
def fillReverse (count : Nat) : PyDict String Int → List (Option String) →
    Res (List (Option String))
  | [], r => .ok r
  | (s, v) :: d, r =>
    if v < 0 ∨ (count : Int) ≤ v then .error .InvalidArgumentValue
    else fillReverse count d (r.set v.toNat (some s))

/-- Argument `assignments` of `setNames`: `None`, a list of names, or a dict name → index whose
keys are names or `None` (axis.py:198-216).  A single string is the one-element list.  Non-string
names and other iterables are not modelled (the former are refused, the latter become lists). -/
inductive Assign where
  | none
  | list (l : List (Option String))
  | dict (d : PyDict (Option String) Int)
  deriving DecidableEq, Repr

/-- `del names[None]` when present, and keep only string keys (axis.py:242-244). -/
def dropNoneKey (d : PyDict (Option String) Int) : PyDict String Int :=
  d.filterMap (fun p => p.1.map (fun s => (s, p.2)))

/-- `_setNames(assignments)` without `oldIdentifiers` (axis.py:201-261). -/
def AxisSt.setNames (a : AxisSt) (asg : Assign) : Res AxisSt :=
  match asg with
  | .none => .ok { a with tbl := .none }                         -- 201-204
  | .list l =>
    if l.length ≠ a.len then .error .InvalidArgumentValue          -- 221-225
    else if a.len = 0 then .ok { a with tbl := some ⟨[], []⟩ }     -- 226-229
    else do
      let names ← listToNames 0 l []                               -- 233-239
      let inv ← fillReverse a.len (names.map (fun p => (p.1, (p.2 : Int))))
        (List.replicate a.len none)                                -- 247-258
      return { a with tbl := some ⟨names, inv⟩ }                   -- 260-261
  | .dict d =>
    if d.length ≠ a.len then .error .InvalidArgumentValue
    else if a.len = 0 then .ok { a with tbl := some ⟨[], []⟩ }
    else do
      let names := dropNoneKey d                                   -- 242-244
      let inv ← fillReverse a.len names (List.replicate a.len none)
      return { a with tbl := some ⟨names.map (fun p => (p.1, p.2.toNat)), inv⟩ }

/-- `Axis.__init__(base, names)` for `names` a list or `None` (axis.py:79-108). -/
def AxisSt.init (len : Nat) (names : Option (List (Option String))) : Res AxisSt :=
  match names with
  | none => .ok ⟨len, none⟩
  | some l =>
    if l.length ≠ len then .error .InvalidArgumentValue
    else AxisSt.setNames ⟨len, none⟩ (.list l)

/-- An identifier of a point or feature: an integer index (python or numpy, `True`/`False` count
as 1/0), a name, or a finite float. -/
inductive Ident where
  | int (i : Int)
  | str (s : String)
  | flt (q : Rat)
  deriving DecidableEq

/-- `_getIndexByName` (axis.py:1026-1045). -/
def AxisSt.getIndexByName (a : AxisSt) (s : String) : Res Nat :=
  match a.tbl with
  | none => .error .KeyError
  | some t => match PyDict.get? t.names s with
    | some i => .ok i
    | none => .error .KeyError

/-- Value returned by `_getIndex(identifier, allowFloats)` (axis.py:321-351).  Note that the float
branch performs no range check, so the result is an `Int` that may be out of range. -/
def AxisSt.getIndex (a : AxisSt) (id : Ident) (allowFloats : Bool := false) : Res Int :=
  if a.len = 0 then .error .IndexError
  else match id with
    | .int i =>
      let i' := if i < 0 then (a.len : Int) + i else i
      if i' < 0 ∨ (a.len : Int) ≤ i' then .error .IndexError else .ok i'
    | .str s => (a.getIndexByName s).map Int.ofNat
    | .flt q =>
      if allowFloats then
        if q.den ≠ 1 then .error .KeyError else .ok q.num
      else .error .InvalidArgumentType

/-- State effect of `_getIndex`: looking a string up creates default names (axis.py:1027-1028). -/
def AxisSt.afterGetIndex (a : AxisSt) (id : Ident) : AxisSt :=
  if a.len = 0 then a
  else match id with
    | .str _ => a.touch
    | _ => a

/-- `_hasName(name)` (axis.py:356-361): only `KeyError` is caught. -/
def AxisSt.hasName (a : AxisSt) (s : String) : Res Bool :=
  match a.getIndex (.str s) with
  | .ok _ => .ok true
  | .error .KeyError => .ok false
  | .error e => .error e

/-- The loop resolving `oldIdentifiers` (axis.py:278-289): indices and old names.  The table `t`
is the state after `_setAllDefault` (axis.py:280-281). -/
def resolveOld (a : AxisSt) (t : NameTable) : List Ident → Res (List (Option String × Nat))
  | [] => .ok []
  | id :: rest => do
    let idx ← a.getIndex id
    let idx := idx.toNat
    let oldName : Option String :=
      match id with
      | .str s => if PyDict.has t.names s then some s else (t.inv[idx]?).join
      | _ => (t.inv[idx]?).join
    let more ← resolveOld a t rest
    return (oldName, idx) :: more

/-- The loop checking the new names (axis.py:294-303) over `assignments_dict.items()`. -/
def checkNew (t : NameTable) : PyDict (Option String) Nat → Res Unit
  | [] => .ok ()
  | (none, _) :: d => checkNew t d
  | (some s, idx) :: d =>
    if PyDict.has t.names s then
      if (t.inv[idx]?).join = some s then checkNew t d
      else .error .InvalidArgumentValue
    else checkNew t d

/-- One iteration of the deletion loop (axis.py:305-307). -/
def delOld (d : PyDict String Nat) (p : Option String × Nat) : PyDict String Nat :=
  match p.1 with
  | some s => PyDict.del d s
  | none => d

/-- One iteration of the write loop (axis.py:308-311). -/
def writeOne (t : NameTable) (p : Option String × Nat) : NameTable :=
  ⟨match p.1 with
    | some s => PyDict.set t.names s p.2
    | none => t.names, t.inv.set p.2 p.1⟩

/-- The update loops (axis.py:305-311): delete all old names, then write the new ones. -/
def applyNew (t : NameTable) (old new : PyDict (Option String) Nat) : NameTable :=
  new.foldl writeOne ⟨old.foldl delOld t.names, t.inv⟩

/-- `_setNames(assignments, oldIdentifiers)` with `oldIdentifiers` given (axis.py:262-316) for list
assignments.  Returns the final state (also on an exception, because default names are created
before the checks, axis.py:280-281) and the outcome. -/
def AxisSt.setNamesPartial (a : AxisSt) (new : List (Option String)) (old : List Ident) :
    AxisSt × Res Unit :=
  if a.len = 0 then (a, .error .ImproperObjectAction)              -- 272-275
  else if new.length ≤ a.len ∧ new.length = old.length then        -- 277
    let a' := a.touch                                              -- 280-281
    match a'.tbl with
    | none => (a', .error .AssertionError)  -- unreachable: `touch` creates the table
    | some t =>
      match resolveOld a' t old with                               -- 282-289
      | .error e => (a', .error e)
      | .ok olds =>
        let oldDict := PyDict.ofPairs olds                         -- 291
        let newDict := PyDict.ofPairs (new.zip (olds.map Prod.snd)) -- 292
        match checkNew t newDict with                              -- 294-303
        | .error e => (a', .error e)
        | .ok () => ({ a' with tbl := some (applyNew t oldDict newDict) }, .ok ())
  else (a, .error .InvalidArgumentValue)                           -- 313-316

end Nimble
