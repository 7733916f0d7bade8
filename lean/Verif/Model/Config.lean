import Verif.Py

/-!
# Session configuration

`SessionConfiguration` (`nimble/core/configuration.py:56-321`).  The `ConfigParser` is a two-level
dictionary of raw values (no `DEFAULT` section); `interp` is its interpolation of `%` when a value
is read, `storable` its check when a value is written (`parser.set` refuses non-strings and invalid
`%`).  Hooks are identified by a value `H`; calls of hooks are logged.  Hooks that raise or that
call the configuration again are not modelled.
-/

namespace Nimble

/-- What the configuration depends on: reading and writing values through `ConfigParser`, and the
check of section/option against the available interfaces (configuration.py:231-260). -/
structure CfgEnv (S O V : Type) where
  interp : V → Res V
  storable : V → Bool
  allowed : S → O → Res Unit

/-- State of a `SessionConfiguration`. -/
structure Cfg (S O V H : Type) where
  /-- `self.changes` -/
  changes : PyDict S (PyDict O V)
  /-- `self.parser` (in memory) -/
  parser : PyDict S (PyDict O V)
  /-- the configuration file -/
  file : PyDict S (PyDict O V)
  /-- `self.hooks` -/
  hooks : PyDict (S × O) (Option H)
  /-- calls of hooks so far -/
  calls : List (H × V)

section
variable {S O V H : Type} [DecidableEq S] [DecidableEq O] [DecidableEq V]

/-- `d[s][o]` if both exist. -/
def get2 (d : PyDict S (PyDict O V)) (s : S) (o : O) : Option V :=
  (PyDict.get? d s).bind (fun i => PyDict.get? i o)

/-- `d.setdefault(s, {})[o] = v` (configuration.py:262-264; 288-290). -/
def set2 (d : PyDict S (PyDict O V)) (s : S) (o : O) (v : V) : PyDict S (PyDict O V) :=
  PyDict.set d s (PyDict.set ((PyDict.get? d s).getD []) o v)

/-- `del d[s][o]` and drop an empty section (configuration.py:222-224, 316-318). -/
def del2 (d : PyDict S (PyDict O V)) (s : S) (o : O) : PyDict S (PyDict O V) :=
  match PyDict.get? d s with
  | none => d
  | some i => if PyDict.del i o = [] then PyDict.del d s else PyDict.set d s (PyDict.del i o)

/-- `ConfigParser`'s `BasicInterpolation` when a value is read: `%%` stands for `%`, any other `%`
is an error.  References `%(name)s` are not modelled. -/
def pctRead : List Char → Res (List Char)
  | [] => .ok []
  | '%' :: '%' :: r => (pctRead r).map ('%' :: ·)
  | '%' :: _ => .error .ValueError
  | c :: r => (pctRead r).map (c :: ·)

/-- The check of `ConfigParser.set` on a string value: no `%` is left once every `%%` is removed. -/
def pctStorable : List Char → Bool
  | [] => true
  | '%' :: '%' :: r => pctStorable r
  | '%' :: _ => false
  | _ :: r => pctStorable r

namespace Cfg

/-- `self.parser.get(section, option)`. -/
def parserGet (E : CfgEnv S O V) (c : Cfg S O V H) (s : S) (o : O) : Res V :=
  match PyDict.get? c.parser s with
  | none => .error .NoSectionError
  | some i => match PyDict.get? i o with
    | none => .error .NoOptionError
    | some raw => E.interp raw

/-- `get(section, option)` (configuration.py:135-139). -/
def get (E : CfgEnv S O V) (c : Cfg S O V H) (s : S) (o : O) : Res V :=
  match get2 c.changes s o with
  | some v => .ok v
  | none => c.parserGet E s o

/-- The loop adding the options of the file to a section (configuration.py:146-149, 161-164):
`if optName not in ret: ret[optName] = optVal`; reading a value interpolates it. -/
def addOptions (E : CfgEnv S O V) : PyDict O V → PyDict O V → Res (PyDict O V)
  | ret, [] => .ok ret
  | ret, (o, raw) :: rest =>
    match E.interp raw with
    | .error e => .error e
    | .ok v => addOptions E (if PyDict.has ret o then ret else PyDict.set ret o v) rest

/-- `get(section)` (configuration.py:141-155). -/
def getSection (E : CfgEnv S O V) (c : Cfg S O V H) (s : S) : Res (PyDict O V) :=
  match PyDict.get? c.parser s with
  | some opts => addOptions E ((PyDict.get? c.changes s).getD []) opts
  | none =>
    if (PyDict.get? c.changes s).getD [] = [] then .error .NoSectionError
    else .ok ((PyDict.get? c.changes s).getD [])

/-- The loop of `get()` (configuration.py:158-164).  `changes` is `self.changes` and `ret` the
shallow copy: the inner dictionaries of sections present in `self.changes` are shared, so options
added to them are added to `self.changes` as well. -/
def getAllLoop (E : CfgEnv S O V) (shared : List S) :
    PyDict S (PyDict O V) → PyDict S (PyDict O V) → PyDict S (PyDict O V) →
    Res (PyDict S (PyDict O V) × PyDict S (PyDict O V))
  | changes, ret, [] => .ok (changes, ret)
  | changes, ret, (s, opts) :: rest =>
    match addOptions E ((PyDict.get? ret s).getD []) opts with
    | .error e => .error e
    | .ok i => getAllLoop E shared (if s ∈ shared then PyDict.set changes s i else changes)
        (PyDict.set ret s i) rest

/-- `get()` (configuration.py:157-166): the new state and the returned dictionary.  When reading a
value raises, the options added so far remain; that state is not modelled. -/
def getAll (E : CfgEnv S O V) (c : Cfg S O V H) : Cfg S O V H × Res (PyDict S (PyDict O V)) :=
  match getAllLoop E (PyDict.keys c.changes) c.changes c.changes c.parser with
  | .error e => (c, .error e)
  | .ok (changes, ret) => ({ c with changes := changes }, .ok ret)

/-- `key in self.hooks and self.hooks[key] is None` (configuration.py:181). -/
def hookDisabled (c : Cfg S O V H) (s : S) (o : O) : Bool :=
  match PyDict.get? c.hooks (s, o) with
  | some none => true
  | _ => false

/-- `hook(section, option, toCall)` with a valid `toCall` or `None` (configuration.py:168-195). -/
def hook (c : Cfg S O V H) (s : S) (o : O) (h : Option H) : Cfg S O V H × Res Unit :=
  if c.hookDisabled s o then (c, .error .ImproperObjectAction)
  else ({ c with hooks := PyDict.set c.hooks (s, o) h }, .ok ())

/-- Calling the hook (configuration.py:266-269). -/
def callHook (c : Cfg S O V H) (s : S) (o : O) (v : V) : Cfg S O V H :=
  match PyDict.get? c.hooks (s, o) with
  | some (some h) => { c with calls := c.calls ++ [(h, v)] }
  | _ => c

/-- Storing a value (configuration.py:231-269). -/
def store (E : CfgEnv S O V) (c : Cfg S O V H) (s : S) (o : O) (v : V) : Cfg S O V H × Res Unit :=
  match E.allowed s o with
  | .error e => (c, .error e)
  | .ok _ => (callHook { c with changes := set2 c.changes s o v } s o v, .ok ())

/-- `set(section, option, value)` (configuration.py:207-269). -/
def set (E : CfgEnv S O V) (c : Cfg S O V H) (s : S) (o : O) (v : V) : Cfg S O V H × Res Unit :=
  match c.parserGet E s o with
  | .error .NoSectionError => c.store E s o v
  | .error .NoOptionError => c.store E s o v
  | .error e => (c, .error e)
  | .ok inFile =>
    if inFile = v ∧ (get2 c.changes s o).isSome then
      ({ c with changes := del2 c.changes s o }, .ok ())
    else c.store E s o v

/-- `changeIndividual` for the options of one section (configuration.py:287-290, 299-301, 306-308):
the parser and whether all could be written. -/
def writeOptions (E : CfgEnv S O V) (s : S) : PyDict S (PyDict O V) → PyDict O V →
    PyDict S (PyDict O V) × Res Unit
  | p, [] => (p, .ok ())
  | p, (o, v) :: rest =>
    if E.storable v then writeOptions E s (set2 p s o v) rest
    else (PyDict.set p s ((PyDict.get? p s).getD []), .error .ValueError)

/-- The same for all sections (configuration.py:298-301). -/
def writeAll (E : CfgEnv S O V) : PyDict S (PyDict O V) → PyDict S (PyDict O V) →
    PyDict S (PyDict O V) × Res Unit
  | p, [] => (p, .ok ())
  | p, (s, opts) :: rest =>
    match writeOptions E s p opts with
    | (p, .error e) => (p, .error e)
    | (p, .ok _) => writeAll E p rest

/-- What is to be saved (configuration.py:293-318). -/
inductive What (S O : Type) where
  | all
  | sec (s : S)
  | opt (s : S) (o : O)

/-- The changes to be written and the changes that remain. -/
def toSave (c : Cfg S O V H) : What S O → PyDict S (PyDict O V) × PyDict S (PyDict O V)
  | .all => (c.changes, [])
  | .sec s => match PyDict.get? c.changes s with
    | none => ([], c.changes)
    | some opts => ([(s, opts)], PyDict.del c.changes s)
  | .opt s o => match get2 c.changes s o with
    | none => ([], c.changes)
    | some v => ([(s, [(o, v)])], del2 c.changes s o)

/-- `saveChanges` (configuration.py:271-321); the combination `section=None, option=…` is refused
by the code and has no counterpart in `What`. -/
def saveChanges (E : CfgEnv S O V) (c : Cfg S O V H) (w : What S O) : Cfg S O V H × Res Unit :=
  if c.changes = [] then (c, .ok ())
  else match writeAll E c.parser (c.toSave w).1 with
    | (p, .error e) => ({ c with parser := p }, .error e)
    | (p, .ok _) => ({ c with parser := p, changes := (c.toSave w).2, file := p }, .ok ())

/-- `setDefault` (configuration.py:197-205). -/
def setDefault (E : CfgEnv S O V) (c : Cfg S O V H) (s : S) (o : O) (v : V) : Cfg S O V H × Res Unit :=
  match c.set E s o v with
  | (c, .error e) => (c, .error e)
  | (c, .ok _) => c.saveChanges E (.opt s o)

/-- A new session reading the configuration file (configuration.py:78-98).  That
`ConfigParser.write` followed by `read` gives the same raw values is assumed (values without
leading/trailing white space, line breaks or comment prefixes). -/
def load (file : PyDict S (PyDict O V)) : Cfg S O V H := ⟨[], file, file, [], []⟩

/-- The calls of a session. -/
inductive Op (S O V H : Type) where
  | set (s : S) (o : O) (v : V)
  | save (w : What S O)
  | getAll
  | hook (s : S) (o : O) (h : Option H)

/-- One call: the new state and whether it raised. -/
def step (E : CfgEnv S O V) (c : Cfg S O V H) : Op S O V H → Cfg S O V H × Res Unit
  | .set s o v => c.set E s o v
  | .save w => c.saveChanges E w
  | .getAll => ((c.getAll E).1, (c.getAll E).2.map (fun _ => ()))
  | .hook s o h => c.hook s o h

/-- A history of calls, errors being caught by the caller. -/
def run (E : CfgEnv S O V) : Cfg S O V H → List (Op S O V H) → Cfg S O V H
  | c, [] => c
  | c, op :: ops => run E (c.step E op).1 ops

end Cfg
end
end Nimble
