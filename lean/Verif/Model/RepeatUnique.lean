import Verif.Model.Create

/-!
# `repeat` and `unique` (axis.py:805-857, listAxis.py:115-152)
-/

namespace Nimble
variable {V : Type}

/-! ## unique -/

/-- The loop of `denseAxisUniqueArray` (_dataHelpers.py:272-277): indices of the vectors not seen
before. -/
def uniqueLoop [DecidableEq V] : List (List V) → Nat → List (List V) → List Nat
  | [], _, _ => []
  | v :: vs, i, seen =>
    if v ∈ seen then uniqueLoop vs (i + 1) seen
    else i :: uniqueLoop vs (i + 1) (v :: seen)

/-- The names argument given to `nimble.data` by `_uniqueNameGetter` (axis.py:1503-1515). -/
def uniqueNames (a : AxisSt) (idx : List Nat) : NamesArg :=
  match a.tbl with
  | none => .no
  | some t => .given (pick t.inv idx)

/-- `points.unique` / `features.unique` of a `List` object (axis.py:850-857, listAxis.py:115-130).
Equal values are those Python's `==` (and hash) identifies. -/
def Obj.unique [DecidableEq V] (C : CellOps V) (o : Obj V) (ax : Ax) : Res (Obj V) :=
  let idx := uniqueLoop ((List.range (o.axis ax).len).map (o.vector ax)) 0 []
  let data := Obj.selData ax o.data idx
  if o.data = data then .ok o
  else match ax with
    | .point => nimbleData C (uniqueNames o.pts idx) (uniqueNames o.fts (List.range o.fts.len)) data
    | .feature => nimbleData C (uniqueNames o.pts (List.range o.pts.len)) (uniqueNames o.fts idx) data

/-! ## repeat -/

/-- `name + "_" + str(i + 1)`; `None + "_"` raises (axis.py:828, 830, 836, 838). -/
def copyName (name : Option String) (i : Nat) : Res String :=
  match name with
  | none => .error .TypeError
  | some s => .ok (s ++ "_" ++ Nat.repr (i + 1))

/-- One step of the vector by vector loop (axis.py:826-830); `n` is `len(origNames)`. -/
def storeVbv (k n : Nat) (names : List (Option String)) (e : Option String × Nat × Nat) :
    Res (List (Option String)) := do
  let s ← copyName e.1 e.2.2
  if k * e.2.1 + e.2.2 < n then return names.set (k * e.2.1 + e.2.2) (some s)
  else return names ++ [some s]

/-- One step of the loop over whole copies (axis.py:834-838). -/
def storeBlock (names : List (Option String)) (e : Option String × Nat × Nat) :
    Res (List (Option String)) := do
  let s ← copyName e.1 e.2.2
  if e.2.2 = 0 then return names.set e.2.1 (some s)
  else return names ++ [some s]

/-- A loop over entries that may raise. -/
def foldRes {A B : Type} (f : B → A → Res B) : List A → B → Res B
  | [], b => .ok b
  | a :: as, b => do
    let b' ← f b a
    foldRes f as b'

/-- `(name, idx, i)` in the order of the nested loops (axis.py:824-825, 833-834). -/
def repeatEntries (vbv : Bool) (k : Nat) (orig : List (Option String)) :
    List (Option String × Nat × Nat) :=
  if vbv then orig.zipIdx.flatMap (fun p => (List.range k).map (fun i => (p.1, p.2, i)))
  else (List.range k).flatMap (fun i => orig.zipIdx.map (fun p => (p.1, p.2, i)))

/-- The names of the repeated axis (axis.py:822-838). -/
def repeatNames (vbv : Bool) (k : Nat) (orig : List (Option String)) :
    Res (List (Option String)) :=
  foldRes (if vbv then storeVbv k orig.length else storeBlock) (repeatEntries vbv k orig) orig

/-- Repeating the names if there are any. -/
def repeatNames? (vbv : Bool) (k : Nat) : Option (List (Option String)) →
    Res (Option (List (Option String)))
  | none => .ok none
  | some l => (repeatNames vbv k l).map some

/-- One list repeated (listAxis.py:134-139, 145-150). -/
def repeatList {A : Type} (vbv : Bool) (k : Nat) (l : List A) : List A :=
  if vbv then l.flatMap (fun v => List.replicate k v) else (List.replicate k l).flatten

/-- `_repeat_implementation` (listAxis.py:132-152). -/
def repeatData (ax : Ax) (vbv : Bool) (k : Nat) (data : List (List V)) : List (List V) :=
  match ax with
  | .point => repeatList vbv k data
  | .feature => data.map (repeatList vbv k)

/-- `points.repeat` / `features.repeat` (axis.py:805-844).  For points the feature count is put
back afterwards (842-843); for features of an object without points it is the number of names. -/
def Obj.repeat (o : Obj V) (ax : Ax) (totalCopies : Int) (vbv : Bool) : Res (Obj V) := do
  if totalCopies < 1 then .error .InvalidArgumentType
  else if totalCopies = 1 then .ok o
  else
    let names ← repeatNames? vbv totalCopies.toNat (o.axis ax).getNamesNoGen
    let data := repeatData ax vbv totalCopies.toNat o.data
    match ax with
    | .point => Obj.makeFrom data o.fts.len names o.fts.getNamesNoGen
    | .feature => Obj.makeFrom data (names.getD []).length o.pts.getNamesNoGen names

end Nimble
