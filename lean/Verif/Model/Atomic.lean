import Verif.Model.Insert

/-!
# The in-place operations as sequences of writes

The other files model an operation as a function from the object to the new object or an error.
Here the same operations are programs that read and write the object step by step, in the order of
the code; an exception leaves whatever was written before it.  Writes of the data are single steps
(each of them builds the new rows first and cannot raise).
-/

namespace Nimble

/-- A step: it changes the object and returns or raises. -/
abbrev Act (V α : Type) : Type := Obj V → Obj V × Res α

namespace Act
variable {V α β : Type}

def ret (a : α) : Act V α := fun o => (o, .ok a)

/-- Sequencing: an exception ends the program, the object stays as it is then. -/
def andThen (m : Act V α) (f : α → Act V β) : Act V β := fun o =>
  match m o with
  | (o', .ok a) => f a o'
  | (o', .error e) => (o', .error e)

/-- A computation that only reads: it may raise. -/
def read (f : Obj V → Res α) : Act V α := fun o => (o, f o)

def write (f : Obj V → Obj V) : Act V Unit := fun o => (f o, .ok ())

/-- `if c: raise e`. -/
def raiseIf (c : Obj V → Bool) (e : Err) : Act V Unit := fun o =>
  if c o then (o, .error e) else (o, .ok ())

def cond (c : Obj V → Bool) (m n : Act V α) : Act V α := fun o => if c o then m o else n o

end Act

open Act

namespace Obj
variable {V : Type}

/-- `self._base._dims[..] = n`. -/
def setLen (o : Obj V) (ax : Ax) (n : Nat) : Obj V := o.setAxis ax ⟨n, (o.axis ax).tbl⟩

/-- `self.names, self.namesInverse = ..` -/
def setTbl (o : Obj V) (ax : Ax) (t : Option NameTable) : Obj V :=
  o.setAxis ax ⟨(o.axis ax).len, t⟩

/-- Default names are created by looking up a name (axis.py:1026-1028) or reading the names
(axis.py:188-195). -/
def touchAxis (o : Obj V) (ax : Ax) : Obj V := o.setAxis ax (o.axis ax).touch

/-- `_getIndex(identifier)` (axis.py:321-351). -/
def getIndexA (ax : Ax) (id : Ident) : Act V Int :=
  andThen (write fun o => o.setAxis ax ((o.axis ax).afterGetIndex id)) fun _ =>
  read fun o => (o.axis ax).getIndex id

/-- `constructIndicesList` (_dataHelpers.py:305-333). -/
def resolveA (ax : Ax) : List Ident → Act V (List Nat)
  | [] => ret []
  | id :: ids =>
    andThen (getIndexA ax id) fun i =>
    andThen (resolveA ax ids) fun rest => ret (i.toNat :: rest)

/-- `_setNames(assignments)` (axis.py:201-261): the attributes are written at the end. -/
def setNamesA (ax : Ax) (asg : Assign) : Act V Unit :=
  andThen (read fun o => (o.axis ax).setNames asg) fun a => write fun o => o.setTbl ax a.tbl

/-- `_permute(order)` with the order resolved (axis.py:469-487). -/
def permuteResolvedA (ax : Ax) (l : List Nat) : Act V Unit :=
  andThen (raiseIf (fun o => decide (l.length ≠ (o.axis ax).len)) .InvalidArgumentValue) fun _ =>
  andThen (raiseIf (fun _ => decide (¬ l.Nodup)) .InvalidArgumentValue) fun _ =>
  cond (fun o => decide ((o.axis ax).len ≤ 1)) (ret ()) <|
  andThen (write fun o => { o with data := permuteData ax o.data l }) fun _ =>      -- 482
  cond (fun o => (o.axis ax).tbl.isSome)
    (andThen (read fun o => .ok (o.axis ax).getNames) fun names =>                   -- 485
      setNamesA ax (.list (pick names l)))                                          -- 486-487
    (ret ())

/-- `permute(order)` (axis.py:461-487). -/
def permuteA (ax : Ax) (order : List Ident) : Act V Unit :=
  andThen (resolveA ax order) fun l => permuteResolvedA ax l

/-- `_sortByIdentifier(index, reverse)` for one key (axis.py:1268-1274). -/
def sortByOneA (le : V → V → Bool) (reverse : Bool) (ax : Ax) (by' : Ident) : Act V Unit :=
  andThen (getIndexA ax.off by') fun i =>
  andThen (read fun o => .ok (sortOrder le reverse (o.vector ax.off i.toNat))) fun order =>
  permuteA ax (order.map (fun (k : Nat) => .int k))

/-- The loop over the keys, last to first (axis.py:1264-1266). -/
def sortKeysA (le : V → V → Bool) (reverse : Bool) (ax : Ax) : List Ident → Act V Unit
  | [] => ret ()
  | k :: ks => andThen (sortByOneA le reverse ax k) fun _ => sortKeysA le reverse ax ks

def sortA (le : V → V → Bool) (reverse : Bool) (ax : Ax) (keys : List Ident) : Act V Unit :=
  sortKeysA le reverse ax keys.reverse

/-- Position of an insertion (axis.py:620-627). -/
def insertPosA (ax : Ax) (before : Option Ident) : Act V Nat :=
  match before with
  | none => read fun o => .ok (o.axis ax).len
  | some id =>
    cond (fun o => decide (id = .int (o.axis ax).len ∧ (o.axis ax).len ≠ 0))
      (read fun o => .ok (o.axis ax).len)
      (andThen (getIndexA ax id) fun i => ret i.toNat)

/-- `_setInsertedCountAndNames` (axis.py:1480-1501). -/
def insertedA (ax : Ax) (ins : Obj V) (i : Nat) : Act V Unit :=
  cond (fun o => (o.axis ax).tbl.isNone && (ins.axis ax).tbl.isNone)
    (write fun o => o.setLen ax ((o.axis ax).len + (ins.axis ax).len))               -- 1490
    (andThen (read fun o => .ok ((o.axis ax).len + (ins.axis ax).len)) fun n =>      -- 1487
      andThen (write fun o => o.touchAxis ax) fun _ =>                              -- 1492
      andThen (read fun o => .ok (o.axis ax).getNames) fun names =>
      andThen (write fun o => o.setLen ax n) fun _ =>                               -- 1495
      setNamesA ax (.list (names.take i ++ (ins.axis ax).getNames ++ names.drop i)))

/-- `insert` / `append` (axis.py:619-638). -/
def insertA (ax : Ax) (before : Option Ident) (other : Obj V) : Act V Unit :=
  andThen (insertPosA ax before) fun i =>
  andThen (read fun o => validateInsertable o other ax) fun _ =>
  andThen (read fun o => alignNames o other ax) fun ins =>
  andThen (write fun o =>
    { o with data := insertData ax (o.axis ax).len o.data ins.data i }) fun _ =>     -- 636
  insertedA ax ins i                                                                -- 638

/-- `_genericStructuralFrontend('extract'/'delete', ..)` (axis.py:1133-1244) after the targets are
known: the data of the caller are reduced before the new object is built from the values and names
collected first (listAxis.py:66-96); then length and names of the caller are reduced. -/
def removeA (ax : Ax) (tgt : List Nat) : Act V (Obj V) :=
  andThen (read fun o => .ok (o.selected ax tgt)) fun sel =>                         -- listAxis 66-67, 80-84
  andThen (write fun o => { o with data := restData ax (o.axis ax).len o.data tgt }) fun _ =>
  andThen (read fun _ => sel) fun res =>                                            -- listAxis 94-96
  andThen (write fun o => o.setLen ax ((o.axis ax).len - (res.axis ax).len)) fun _ => -- 1232
  andThen (write fun o => o.setTbl ax
    ((o.axis ax).tbl.map (fun t => reindexLoop tgt 0 t.inv ⟨[], []⟩))) fun _ =>       -- 1233-1242
  ret res

/-- Default names may have been created while the targets were looked up (`t`). -/
def touchIf (t : Bool) (ax : Ax) : Act V Unit := write fun o => if t then o.touchAxis ax else o

/-- Resolution of the targets (axis.py:1138-1210); `t` tells whether it created default names. -/
def targetsA (samp : List Nat → Nat → List Nat) (t : Bool) (ax : Ax) (sel : Selector V) :
    Act V (List Nat) :=
  andThen (read fun o => .ok (o.targets samp ax sel)) fun res =>
  andThen (touchIf t ax) fun _ => read fun _ => res

/-- `extract` and `delete` (which drops the result). -/
def extractA (samp : List Nat → Nat → List Nat) (t : Bool) (ax : Ax) (sel : Selector V) :
    Act V (Obj V) :=
  andThen (targetsA samp t ax sel) fun tgt => removeA ax tgt

/-- `retain` (axis.py:415-420): the backend also removes the targets from the caller's data before
the selected object is built (listAxis.py:68-70, 85-92); `_referenceFrom` then reinitialises. -/
def retainA (samp : List Nat → Nat → List Nat) (t : Bool) (ax : Ax) (sel : Selector V) :
    Act V Unit :=
  andThen (targetsA samp t ax sel) fun tgt =>
  andThen (read fun o => .ok (o.selected ax tgt)) fun s =>
  andThen (write fun o => { o with data := restData ax (o.axis ax).len o.data tgt }) fun _ =>
  andThen (read fun _ => s) fun res =>
  andThen (read fun _ => make res.data res.pts.len res.fts.len res.pts.getNamesNoGen
    res.fts.getNamesNoGen) fun o' => write fun _ => o'

/-- `transpose` (base.py:3634-3640). -/
def transposeA : Act V Unit :=
  andThen (write fun o => { o with data := transposeData o.fts.len o.data }) fun _ =>
  andThen (write fun o => { o with pts := ⟨o.fts.len, o.pts.tbl⟩, fts := ⟨o.pts.len, o.fts.tbl⟩ }) fun _ =>
  andThen (read fun o => .ok (o.fts.getNamesNoGen, o.pts.getNamesNoGen)) fun n =>
  andThen (setNamesA .point (asAssign n.1)) fun _ =>
  setNamesA .feature (asAssign n.2)

/-- One `del self.names[name]` (axis.py:305-307): `KeyError` when the name is not there. -/
def delOldA (ax : Ax) (p : Option String × Nat) : Act V Unit :=
  match p.1 with
  | none => ret ()
  | some s =>
    andThen (raiseIf (fun o => ((o.axis ax).tbl.map (fun t => !PyDict.has t.names s)).getD true)
      .KeyError) fun _ =>
    write fun o => o.setTbl ax ((o.axis ax).tbl.map (fun t => ⟨PyDict.del t.names s, t.inv⟩))

/-- One iteration of the write loop (axis.py:308-311). -/
def writeOneA (ax : Ax) (p : Option String × Nat) : Act V Unit :=
  write fun o => o.setTbl ax ((o.axis ax).tbl.map (fun t => writeOne t p))

def forEach {α : Type} (f : α → Act V Unit) : List α → Act V Unit
  | [] => ret ()
  | a :: l => andThen (f a) fun _ => forEach f l

/-- `setNames(assignments, oldIdentifiers)` (axis.py:262-316). -/
def renameA (ax : Ax) (new : List (Option String)) (old : List Ident) : Act V Unit :=
  andThen (raiseIf (fun o => decide ((o.axis ax).len = 0)) .ImproperObjectAction) fun _ =>
  andThen (raiseIf (fun o => !decide (new.length ≤ (o.axis ax).len ∧ new.length = old.length))
    .InvalidArgumentValue) fun _ =>
  andThen (write fun o => o.touchAxis ax) fun _ =>
  andThen (read fun o => resolveOld (o.axis ax) ((o.axis ax).tbl.getD ⟨[], []⟩) old) fun olds =>
  andThen (read fun o => checkNew ((o.axis ax).tbl.getD ⟨[], []⟩)
    (PyDict.ofPairs (new.zip (olds.map Prod.snd)))) fun _ =>
  andThen (forEach (delOldA ax) (PyDict.ofPairs olds)) fun _ =>
  forEach (writeOneA ax) (PyDict.ofPairs (new.zip (olds.map Prod.snd)))

end Obj
end Nimble
