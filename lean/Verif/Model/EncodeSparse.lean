import Verif.Model.Encode
import Verif.Model.Sparse

/-!
# `replaceFeatureWithBinaryFeatures` of Sparse objects (sparse.py:241-255, 784-797)

The representation specific part: the extracted feature `c` (one column) becomes the table of the new features.
Extraction, naming and insertion (base.py:568-601) are modelled in `Verif.Model.Encode`.
-/

namespace Nimble
namespace Sp
variable {V : Type} [DecidableEq V]

/-- `countUniqueElements().keys()` of a Sparse object (sparse.py:250-254): the stored values, then zero if an element
is not stored. -/
def sparseKeys (E : EncOps V) (c : Coo V) : List V :=
  if 0 < c.rows * c.cols - c.ents.length then
    PyDict.keys (PyDict.set ((uniqueKeys E (c.ents.map Ent.val)).map (fun v => (v, ()))) E.zero ())
  else uniqueKeys E (c.ents.map Ent.val)

/-- One round of the loop (sparse.py:788-792): `uniqueIdx[val]` raises for a value that is no key. -/
def hotEnt (E : EncOps V) (uniq : List V) (e : Ent V) : Res (Ent V) :=
  if e.val ∈ uniq then .ok ⟨e.row, uniq.idxOf e.val, E.one⟩ else .error .KeyError

/-- `_replaceFeatureWithBinaryFeatures_implementation(uniqueIdx)` (sparse.py:784-797). -/
def spBinary (E : EncOps V) (uniq : List V) (c : Coo V) : Res (Coo V) := do
  let ents ← c.ents.mapM (hotEnt E uniq)
  return { rows := c.rows, cols := uniq.length, ents := ents }

/-- The two together (base.py:576-580). -/
def spEncode (E : EncOps V) (c : Coo V) : Res (List V × Coo V) :=
  (spBinary E (sparseKeys E c) c).map (fun r => (sparseKeys E c, r))

end Sp
end Nimble
