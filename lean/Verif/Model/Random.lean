import Verif.Py

/-!
# Controlled randomness

`nimble/random/randomness.py:34-60, 175-216, 227-260, 282-324`.  Programs using the module are trees
(`RProg`): every call passes its outcome (a value or the exception it raised) to the rest of the
program, so catching exceptions, loops and decisions depending on drawn values are all covered.
`None` as a seed (entropy from the operating system) is a seed like any other: `Seed` is abstract.
Logging is not modelled.
-/

namespace Nimble

/-- The two generators: seeding and drawing.  numpy refuses some seeds that Python's generator
accepts (negative ones, those above 2^32-1). -/
structure RGen (Seed Py Np : Type) where
  seedPy : Seed → Py
  seedNp : Seed → Res Np
  drawPy : Py → Nat × Py
  drawNp : Np → Nat × Np

/-- What happened so far: drawn values and outcomes of `setSeed`. -/
inductive REvent where
  | drew (n : Nat)
  | seeded (outcome : Res Unit)

/-- `pythonRandom`, `numpyRandom`, `setSeed._settable`, and the events so far. -/
structure RSt (Py Np : Type) where
  py : Py
  np : Np
  settable : Bool
  events : List REvent

/-- Programs using `nimble.random`. -/
inductive RProg (Seed : Type) where
  | done (outcome : Res Nat)
  | drawPy (rest : Nat → RProg Seed)
  | drawNp (rest : Nat → RProg Seed)
  | setSeed (seed : Seed) (rest : Res Unit → RProg Seed)
  | alternate (seed : Seed) (body : RProg Seed) (rest : Res Nat → RProg Seed)

section
variable {Seed Py Np : Type}

/-- `setSeed` (randomness.py:49-55): the Python generator is seeded before numpy may refuse the
seed. -/
def rSetSeed (G : RGen Seed Py Np) (seed : Seed) (st : RSt Py Np) : RSt Py Np × Res Unit :=
  if st.settable then
    match G.seedNp seed with
    | .error e => ({ st with py := G.seedPy seed }, .error e)
    | .ok n => ({ st with py := G.seedPy seed, np := n }, .ok ())
  else (st, .error .RuntimeError)

/-- The `finally` clause of `alternateControl` (randomness.py:318-321): `saved` are the values read
at 307-309. -/
def rRestore (saved st : RSt Py Np) : RSt Py Np :=
  { st with py := saved.py, np := saved.np, settable := saved.settable }

/-- Running a program.  The `alternate` case is `alternateControl` as a context manager
(randomness.py:307-321). -/
def RProg.run (G : RGen Seed Py Np) : RProg Seed → RSt Py Np → RSt Py Np × Res Nat
  | .done r, st => (st, r)
  | .drawPy rest, st =>
    (rest (G.drawPy st.py).1).run G
      { st with py := (G.drawPy st.py).2, events := st.events ++ [.drew (G.drawPy st.py).1] }
  | .drawNp rest, st =>
    (rest (G.drawNp st.np).1).run G
      { st with np := (G.drawNp st.np).2, events := st.events ++ [.drew (G.drawNp st.np).1] }
  | .setSeed seed rest, st =>
    (rest (rSetSeed G seed st).2).run G
      { (rSetSeed G seed st).1 with events := st.events ++ [.seeded (rSetSeed G seed st).2] }
  | .alternate seed body rest, st =>
    match G.seedNp seed with
    | .error e => (rest (.error e)).run G (rRestore st { st with py := G.seedPy seed })
    | .ok n =>
      (rest (body.run G { st with py := G.seedPy seed, np := n, settable := false }).2).run G
        (rRestore st (body.run G { st with py := G.seedPy seed, np := n, settable := false }).1)

/-- `_getValidSeed` (randomness.py:247-260) for an integer or absent seed; `generateSubsidiarySeed`
(227-245) is the draw. -/
def getValidSeed (G : RGen Int Py Np) (seed : Option Int) (st : RSt Py Np) : RSt Py Np × Res Int :=
  match seed with
  | none => ({ st with py := (G.drawPy st.py).2, events := st.events ++ [.drew (G.drawPy st.py).1] },
      .ok (G.drawPy st.py).1)
  | some s =>
    if 0 ≤ s ∧ s ≤ 2 ^ 32 - 1 then (st, .ok s) else (st, .error .InvalidArgumentValue)

/-- The random part of `data` (randomness.py:175-216): the seed is made valid, `draws` is whatever
is drawn inside the alternate control. -/
def rData (G : RGen Int Py Np) (seed : Option Int) (draws : RProg Int) (st : RSt Py Np) :
    RSt Py Np × Res Nat :=
  match getValidSeed G seed st with
  | (st, .error e) => (st, .error e)
  | (st, .ok s) => (RProg.alternate s draws .done).run G st

end

/-! ## The matrix made by `random.data` with `sparsity > 0` -/

/-- `np.put(np.zeros(size), nzLocation, dataVector)` (randomness.py:209-211) in row-major flat
order. -/
def putFlat {V : Type} (zero : V) (gridSize : Nat) (nzLocation : List Nat) (dataVector : List V) :
    List V :=
  (List.zip nzLocation dataVector).foldl (fun acc x => acc.set x.1 x.2) (List.replicate gridSize zero)

/-- Element `(i, j)` of the dense result: numpy's row-major layout. -/
def denseElem {V : Type} (numFeatures : Nat) (flat : List V) (i j : Nat) : Option V :=
  flat[i * numFeatures + j]?

/-- The COO entries of the Sparse result (randomness.py:201-207). -/
def cooEntries {V : Type} (numFeatures : Nat) (nzLocation : List Nat) (dataVector : List V) :
    List (Nat × Nat × V) :=
  (List.zip nzLocation dataVector).map (fun x => (x.1 / numFeatures, x.1 % numFeatures, x.2))

/-- Element `(i, j)` of a COO matrix without duplicates. -/
def cooElem {V : Type} (zero : V) (entries : List (Nat × Nat × V)) (i j : Nat) : V :=
  match entries.find? (fun e => e.1 == i && e.2.1 == j) with
  | some e => e.2.2
  | none => zero

end Nimble
