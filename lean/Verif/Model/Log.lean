import Verif.Py

/-!
# The session log (`nimble/core/logger/session_logger.py`)

The sqlite table is a list of entries in the order of insertion (the automatic `entry` number).
-/

namespace Nimble.Log

/-- A row of the table (session_logger.py:239-246). -/
structure Entry where
  time : List Char
  session : Nat
  kind : String
  info : List Char
  deriving DecidableEq, Repr

abbrev Db := List Entry

/-- `SELECT MAX(sessionNumber) FROM logger` (session_logger.py:250). -/
def maxSession (db : Db) : Option Nat := (db.map Entry.session).max?

/-- `SessionLogger.setup`: the number of the new session (session_logger.py:250-256). -/
def setup (db : Db) : Nat :=
  match maxSession db with
  | some m => m + 1
  | none => 0

/-- What is logged: the time, the type and the stored text. -/
structure Msg where
  time : List Char
  kind : String
  info : List Char
  deriving DecidableEq, Repr

/-- The table, and the session number of every open logger (a process, or the logger object of a
settings change). -/
structure St where
  db : Db
  loggers : Nat → Option Nat

/-- `if not self.isAvailable: self.setup()` (session_logger.py:293-294, 325-326, 760-761). -/
def St.ensure (s : St) (i : Nat) : St :=
  match s.loggers i with
  | some _ => s
  | none => { s with loggers := fun j => if j = i then some (setup s.db) else s.loggers j }

/-- `SessionLogger.log` (session_logger.py:293-307). -/
def St.log (s : St) (i : Nat) (m : Msg) : St :=
  let s := s.ensure i
  { s with db := s.db ++ [⟨m.time, (s.loggers i).getD 0, m.kind, m.info⟩] }

/-- `SessionLogger.cleanup`, or the end of the process (session_logger.py:264-272). -/
def St.close (s : St) (i : Nat) : St :=
  { s with loggers := fun j => if j = i then none else s.loggers j }

inductive Op where
  | open (i : Nat)
  | log (i : Nat) (m : Msg)
  | close (i : Nat)

def St.step (s : St) : Op → St
  | .open i => s.ensure i
  | .log i m => s.log i m
  | .close i => s.close i

def St.run (s : St) (ops : List Op) : St := ops.foldl St.step s

/-- `nimble.log` (session_logger.py:58-93); the types of the arguments are not modelled, `text` is
`repr(logInfo)`. -/
def userLog (s : St) (i : Nat) (time : List Char) (heading : String) (text : List Char) : Res St :=
  if 50 < heading.length then .error .InvalidArgumentValue
  else .ok (s.log i ⟨time, "User - " ++ heading, text⟩)

/-! ## Dates -/

structure DateTime where
  year : Nat
  month : Nat
  day : Nat
  hour : Nat
  minute : Nat
  second : Nat
  deriving DecidableEq, Repr

def digit (n : Nat) : Char := Char.ofNat (48 + n % 10)

/-- A number padded with zeros to a width. -/
def digs : Nat → Nat → List Char
  | 0, _ => []
  | w + 1, n => digs w (n / 10) ++ [digit n]

/-- `strftime('%Y-%m-%d')` and the date part of the sqlite adapter. -/
def DateTime.date (d : DateTime) : List Char :=
  digs 4 d.year ++ '-' :: digs 2 d.month ++ '-' :: digs 2 d.day

/-- `strftime('%Y-%m-%d %H:%M:%S')` (session_logger.py:296), and what sqlite's adapter makes of a
`datetime` (its `isoformat(" ")`). -/
def DateTime.fmt (d : DateTime) : List Char :=
  d.date ++ ' ' :: digs 2 d.hour ++ ':' :: digs 2 d.minute ++ ':' :: digs 2 d.second

def isLeap (y : Nat) : Bool := (y % 4 == 0 && y % 100 != 0) || y % 400 == 0

def daysIn (y m : Nat) : Nat :=
  if m = 2 then (if isLeap y then 29 else 28)
  else if m = 4 ∨ m = 6 ∨ m = 9 ∨ m = 11 then 30 else 31

/-- `datetime.datetime(…)` accepts the values. -/
def DateTime.valid (d : DateTime) : Bool :=
  decide (1 ≤ d.year) && decide (d.year ≤ 9999) && decide (1 ≤ d.month) && decide (d.month ≤ 12) &&
  decide (1 ≤ d.day) && decide (d.day ≤ daysIn d.year d.month) && decide (d.hour < 24) &&
  decide (d.minute < 60) && decide (d.second < 60)

def digitVal (c : Char) : Option Nat := if '0' ≤ c ∧ c ≤ '9' then some (c.toNat - 48) else none

/-- The digits of `int(…)`: single underscores between digits are allowed. -/
def intDigits : Option Nat → List Char → Option Nat
  | acc, [] => acc
  | acc, c :: cs =>
    if c = '_' then
      match acc, cs with
      | some a, d :: ds => match digitVal d with
        | some v => intDigits (some (a * 10 + v)) ds
        | none => none
      | _, _ => none
    else match digitVal c with
      | some v => intDigits (some (acc.getD 0 * 10 + v)) cs
      | none => none

def strip (s : List Char) : List Char :=
  ((s.dropWhile Char.isWhitespace).reverse.dropWhile Char.isWhitespace).reverse

/-- Python's `int` of a (ASCII) string. -/
def pyInt (s : List Char) : Option Int :=
  match strip s with
  | '-' :: r => (intDigits none r).map (fun (n : Nat) => -(Int.ofNat n))
  | '+' :: r => (intDigits none r).map Int.ofNat
  | r => (intDigits none r).map Int.ofNat

/-- `datetime.datetime(*args)`. -/
def makeDate : List Int → Option DateTime
  | y :: mo :: d :: rest =>
    let h := rest[0]?.getD 0
    let mi := rest[1]?.getD 0
    let s := rest[2]?.getD 0
    if y < 0 ∨ mo < 0 ∨ d < 0 ∨ h < 0 ∨ mi < 0 ∨ s < 0 then none
    else
      let dt : DateTime := ⟨y.toNat, mo.toNat, d.toNat, h.toNat, mi.toNat, s.toNat⟩
      if dt.valid then some dt else none
  | _ => none

/-- The pieces and dividers of the string by position (session_logger.py:835-848). -/
def dateArgs (s : List Char) : List (List Char) :=
  [s.take 4, (s.drop 5).take 2, (s.drop 8).take 2] ++
    (if 10 < s.length then [(s.drop 11).take 2, (s.drop 14).take 2] else []) ++
    (if 16 < s.length then [s.drop 17] else [])

def dateDividers (s : List Char) : List (Option Char × Char) :=
  [(s[4]?, '-'), (s[7]?, '-')] ++ (if 10 < s.length then [(s[10]?, ' '), (s[13]?, ':')] else []) ++
    (if 16 < s.length then [(s[16]?, ':')] else [])

/-- `stringToDatetime` (session_logger.py:812-866). -/
def stringToDatetime (string : List Char) : Res DateTime :=
  let s := strip string
  if s.length = 10 ∨ s.length = 16 ∨ s.length = 19 then
    if (dateDividers s).all (fun p => decide (p.1 = some p.2)) then
      match ((dateArgs s).mapM pyInt).bind makeDate with
      | some d => .ok d
      | none => .error .InvalidArgumentValue
    else .error .InvalidArgumentValue
  else .error .InvalidArgumentValue

/-- A `startDate` or `endDate` argument. -/
inductive DateArg where
  | str (s : List Char)
  | datetime (d : DateTime)

/-- `stringToDatetime(startDate)` (session_logger.py:925, 928): `datetime` has no `strip`. -/
def DateArg.parse : DateArg → Res DateTime
  | .str s => stringToDatetime s
  | .datetime _ => .error .AttributeError

/-! ## The query -/

/-- Comparison of texts, character by character. -/
def lexLe : List Char → List Char → Bool
  | [], _ => true
  | _ :: _, [] => false
  | a :: as, b :: bs => decide (a.toNat < b.toNat) || (decide (a = b) && lexLe as bs)

/-- SQL's `LIKE`: `%` is any text, `_` any character, ASCII letters match in either case. -/
def like : List Char → List Char → Bool
  | [], t => t.isEmpty
  | c :: p, t =>
    if c = '%' then (List.range (t.length + 1)).any (fun i => like p (t.drop i))
    else match t with
      | [] => false
      | d :: t' => (decide (c = '_') || decide (c.toLower = d.toLower)) && like p t'

/-- The text search (session_logger.py:930-939); `rx` is `re.search`. -/
inductive Search where
  | text (t : List Char)
  | regex (rx : List Char → Bool)

def Search.hits : Search → Entry → Bool
  | .text t, e => like ('%' :: t ++ ['%']) e.kind.toList || like ('%' :: t ++ ['%']) e.info
  | .regex rx, e => rx e.kind.toList || rx e.info

structure Query where
  least : Option Int := some 0
  most : Option Int := some 1
  start : Option DateArg := none
  stop : Option DateArg := none
  limit : Option Int := some 100
  search : Option Search := none

/-- The `WHERE` conditions (session_logger.py:910-939), the dates already converted.  `m` is
`MAX(sessionNumber)`. -/
def whereCond (q : Query) (start stop : Option DateTime) (m : Int) (e : Entry) : Bool :=
  (q.least.all (fun l => decide ((e.session : Int) ≤ m - l))) &&
  (q.most.all (fun k => decide (m - k < (e.session : Int)))) &&
  (start.all (fun d => lexLe d.fmt e.time)) &&
  (stop.all (fun d => lexLe e.time d.fmt)) &&
  (q.search.all (fun s => s.hits e))

/-- `ORDER BY entry DESC LIMIT ?`, then `ORDER BY entry ASC` (session_logger.py:947-951); a negative
limit is none. -/
def limited (limit : Option Int) (rows : List Entry) : List Entry :=
  match limit with
  | none => rows
  | some n => if n < 0 then rows else (rows.reverse.take n.toNat).reverse

def optParse : Option DateArg → Res (Option DateTime)
  | none => .ok none
  | some a => do
    let d ← a.parse
    return some d

/-- The rows selected (session_logger.py:901-954, 763-767). -/
def select (q : Query) (db : Db) : Res (List Entry) := do
  let start ← optParse q.start
  let stop ← optParse q.stop
  return limited q.limit (db.filter (whereCond q start stop ((maxSession db).getD 0 : Nat)))

/-- `startDate > endDate` (session_logger.py:157-159). -/
def datesReversed : Option DateArg → Option DateArg → Res Bool
  | some (.str a), some (.str b) => .ok (!lexLe a b)
  | some (.datetime a), some (.datetime b) => .ok (!lexLe a.fmt b.fmt)
  | some _, some _ => .error .TypeError
  | _, _ => .ok false

/-- `nimble.showLog`'s checks (session_logger.py:154-173). -/
def checkQuery (level : Int) (q : Query) : Res Unit := do
  if level < 1 ∨ 3 < level then throw .InvalidArgumentValue
  let rev ← datesReversed q.start q.stop
  if rev then throw .InvalidArgumentValueCombination
  match q.least with
  | some l =>
    if l < 0 then throw .InvalidArgumentValue
    match q.most with
    | some k => if k < l then throw .InvalidArgumentValueCombination
    | none => pure ()
  | none => pure ()

/-- `logBuilders` (session_logger.py:1280-1287): the level of detail from which a type is shown. -/
def levelOf (kind : String) : Option Nat :=
  [("load", 1), ("tl", 1), ("report", 1), ("prep", 2), ("run", 2), ("deepRun", 3), ("tuning", 2),
    ("setSeed", 1)].lookup kind

/-- An entry appears in the output (session_logger.py:1317-1325). -/
def visible (level : Int) (e : Entry) : Bool :=
  match levelOf e.kind with
  | some l => decide ((l : Int) ≤ level)
  | none => true

/-- The output as items (session_logger.py:1289-1330): a header when the session changes. -/
inductive Item where
  | header (session : Nat)
  | entry (e : Entry)
  deriving DecidableEq, Repr

def render (level : Int) : Option Nat → List Entry → List Item
  | _, [] => []
  | prev, e :: es =>
    (if prev = some e.session then [] else [.header e.session]) ++
    (if visible level e then [.entry e] else []) ++ render level (some e.session) es

/-- `nimble.showLog` (session_logger.py:96-177): the items shown. -/
def showLog (level : Int) (q : Query) (db : Db) : Res (List Item) := do
  checkQuery level q
  let rows ← select q db
  return render level none rows

end Nimble.Log
