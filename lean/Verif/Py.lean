/-!
# Python fragments used by the model

Exceptions as values, insertion-ordered dictionaries and list indexing by a list of indices.
-/

namespace Nimble

/-- Exception classes that the modelled code raises (`nimble/exceptions.py:30-102` and builtins). -/
inductive Err where
  | InvalidArgumentValue
  | InvalidArgumentType
  | InvalidArgumentValueCombination
  | InvalidArgumentTypeCombination
  | ImproperObjectAction
  | PackageException
  | KeyError
  | IndexError
  | TypeError
  | ValueError
  | ZeroDivisionError
  | RuntimeError
  | StopIteration
  | NoSectionError
  | NoOptionError
  | AssertionError
  | NameError
  | AttributeError
  | FileFormatException
  | FloatingPointError
  | OverflowError
  deriving DecidableEq, Repr

/-- Result of a Python call: a value or a raised exception. -/
abbrev Res (α : Type) := Except Err α

/-- A Python `dict` (insertion ordered, CPython ≥ 3.7) as an association list. -/
abbrev PyDict (α β : Type) := List (α × β)

namespace PyDict

variable {α β : Type} [DecidableEq α]

/-- `d.get(k)`. -/
def get? : PyDict α β → α → Option β
  | [], _ => none
  | (k', v) :: d, k => if k' = k then some v else get? d k

/-- `d[k] = v`: overwrite in place, or append a new key at the end. -/
def set : PyDict α β → α → β → PyDict α β
  | [], k, v => [(k, v)]
  | (k', v') :: d, k, v => if k' = k then (k', v) :: d else (k', v') :: set d k v

/-- `del d[k]` (the key is known to be present where the model uses it). -/
def del (d : PyDict α β) (k : α) : PyDict α β := d.filter (fun p => p.1 ≠ k)

/-- `k in d`. -/
def has (d : PyDict α β) (k : α) : Bool := (get? d k).isSome

/-- `d.keys()`. -/
def keys (d : PyDict α β) : List α := d.map Prod.fst

/-- `d.values()`. -/
def values (d : PyDict α β) : List β := d.map Prod.snd

/-- `dict(pairs)` / `dict(zip(..))`: later pairs overwrite earlier ones. -/
def ofPairs (l : List (α × β)) : PyDict α β := l.foldl (fun d p => set d p.1 p.2) []

end PyDict

/-- `[l[i] for i in idxs]`.  Python raises `IndexError` on an index out of range; here such an
index is skipped.  Every use in the model is preceded by code that guarantees valid indices, and
the theorems state that the lengths agree (so nothing was skipped). -/
def pick {α : Type} (l : List α) (idxs : List Nat) : List α := idxs.filterMap (fun i => l[i]?)

/-- `[l[i] for i in range(len(l)) if i not in idxs]`. -/
def dropIdx {α : Type} (l : List α) (idxs : List Nat) : List α :=
  pick l ((List.range l.length).filter (fun i => i ∉ idxs))

end Nimble
