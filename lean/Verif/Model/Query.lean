import Verif.Py

/-!
# Query strings (`nimble/match/query.py`)

Strings are lists of characters.  The conversion of the compared value to a number when possible
(`float(value)`, query.py:154-157, 166-169) is not modelled: the model returns the text of the
value.  Whether a word names a match function (`QueryString._accepted`, query.py:117-120) is a
parameter.
-/

namespace Nimble
namespace Query

abbrev Str := List Char

/-- The operators in the order of the regular expressions (query.py:138, 143, 162). -/
def ops : List Str := [['=', '='], ['!', '='], ['>', '='], ['>'], ['<', '='], ['<']]

/-- `' ' + op + ' '`. -/
def padOp (op : Str) : Str := ' ' :: (op ++ [' '])

/-- `" is "` and `" is not "`. -/
def padIs : Bool → Str
  | false => [' ', 'i', 's', ' ']
  | true => [' ', 'i', 's', ' ', 'n', 'o', 't', ' ']

/-- The operator padded by spaces at the very beginning of the string, if any: one match of
`(?=( (==|!=|>=|>|<=|<) ))` at this position (query.py:143-144).  At most one alternative can
match. -/
def opAt (s : Str) : Option Str := ops.find? (fun op => (padOp op).isPrefixOf s)

/-- `containsOp` (query.py:143-144): the padded operators, overlapping ones included. -/
def containsOp : Str → List Str
  | [] => []
  | c :: t => (opAt (c :: t)).toList ++ containsOp t

/-- One match of `(?=( is( not)? ))` at the beginning of the string: `true` for `" is not "`,
which is preferred (query.py:141-142). -/
def isAt (s : Str) : Option Bool :=
  if (padIs true).isPrefixOf s then some true
  else if (padIs false).isPrefixOf s then some false
  else none

/-- `containsIs` (query.py:141-142). -/
def containsIs : Str → List Bool
  | [] => []
  | c :: t => (isAt (c :: t)).toList ++ containsIs t

/-- What `(.*)` matches: everything up to a newline. -/
def dotStar (s : Str) : Str := s.takeWhile (fun c => c ≠ '\n')

/-- `startsIs = re.match(r'(is( not)? )(.*)', string)` (query.py:137): negation and group 3. -/
def startsIs (s : Str) : Option (Bool × Str) :=
  if ['i', 's', ' ', 'n', 'o', 't', ' '].isPrefixOf s then some (true, dotStar (s.drop 7))
  else if ['i', 's', ' '].isPrefixOf s then some (false, dotStar (s.drop 3))
  else none

/-- Drop one leading space (` ?` in query.py:138). -/
def optSpace : Str → Str
  | ' ' :: t => t
  | s => s

/-- `startsOp = re.match(r'(==|!=|>=|>|<=|<) ?(.*)', string)` (query.py:138): groups 1 and 2. -/
def startsOp (s : Str) : Option (Str × Str) :=
  (ops.find? (fun op => op.isPrefixOf s)).map
    (fun op => (op, dotStar (optSpace (s.drop op.length))))

/-- `re.split(r' (==|!=|>=|>|<=|<) ', string)` up to the first match (query.py:162-163, and
`string.split(containsOp[0])`, query.py:148): the part before, the operator and the part after. -/
def splitOp : Str → Option (Str × Str × Str)
  | [] => none
  | c :: t =>
    match opAt (c :: t) with
    | some op => some ([], op, (c :: t).drop (op.length + 2))
    | none => (splitOp t).map (fun r => (c :: r.1, r.2))

/-- `string.rsplit(containsIs[-1], 1)` (query.py:184): split at the last match. -/
def rsplitIs : Str → Option (Str × Bool × Str)
  | [] => none
  | c :: t =>
    match rsplitIs t with
    | some r => some (c :: r.1, r.2)
    | none => (isAt (c :: t)).map (fun neg => ([], neg, (c :: t).drop (padIs neg).length))

/-- `re.search(r'is( not)? ', s)` (query.py:147): whether `"is "` occurs. -/
def hasIsSpace : Str → Bool
  | [] => false
  | c :: t => ['i', 's', ' '].isPrefixOf (c :: t) || hasIsSpace t

/-- A parsed query: comparison of an element, comparison of a named feature/point, `is` test of an
element, `is` test of a named feature/point. -/
inductive Q where
  | elemOp (op val : Str)
  | axisOp (name op val : Str)
  | elemIs (neg : Bool) (func : Str)
  | axisIs (name : Str) (neg : Bool) (func : Str)
  deriving DecidableEq, Repr

/-- The part of the string after the only operator (query.py:147-148). -/
def afterOp (s : Str) : Str := ((splitOp s).map (fun r => r.2.2)).getD []

/-- `isAsAxisName` (query.py:145-148). -/
def isAsAxisName (s : Str) : Bool :=
  ((startsIs s).isSome && !(containsOp s).isEmpty && (containsIs s).isEmpty)
  || ((containsIs s).length == 1 && (containsOp s).length == 1 && !hasIsSpace (afterOp s))

/-- Lines 151-172: comparison queries. -/
def parseOp (elementQuery : Option Bool) (s : Str) : Option Q :=
  if (startsOp s).isSome && ((containsOp s).isEmpty || elementQuery == some true) then
    (startsOp s).map (fun p => .elemOp p.1 p.2)
  else if (containsOp s).length == 1 && ((startsOp s).isNone || elementQuery == some false) then
    (splitOp s).map (fun r => .axisOp r.1 r.2.1 r.2.2)
  else none

/-- Lines 175-182: `is` queries on elements. -/
def parseElemIs (accepted : Str → Bool) (s : Str) : Option Q :=
  (startsIs s).bind (fun p => if accepted p.2 then some (.elemIs p.1 p.2) else none)

/-- Lines 184-192: `is` queries on a named feature/point. -/
def parseAxisIs (accepted : Str → Bool) (s : Str) : Option Q :=
  (rsplitIs s).bind (fun r => if accepted r.2.2 then some (.axisIs r.1 r.2.1 r.2.2) else none)

/-- The body of the constructor before the final checks (query.py:137-192).  In the last branch
`containsIs[-1]` of an empty list raises `IndexError`; it cannot be reached with `containsIs`
empty. -/
def parseRaw (accepted : Str → Bool) (elementQuery : Option Bool) (s : Str) : Option Q :=
  if (!(!(containsIs s).isEmpty || (startsIs s).isSome)) || isAsAxisName s then parseOp elementQuery s
  else if (startsIs s).isSome && (containsIs s).isEmpty && (containsOp s).isEmpty then
    parseElemIs accepted s
  else parseAxisIs accepted s

/-- `wise == 'element'`. -/
def Q.isElem : Q → Bool
  | .elemOp .. => true
  | .elemIs .. => true
  | _ => false

/-- `QueryString(string, elementQuery)` (query.py:122-206). -/
def parse (accepted : Str → Bool) (elementQuery : Option Bool) (s : Str) : Res Q :=
  match parseRaw accepted elementQuery s with
  | none => .error .InvalidArgumentValue
  | some q =>
    if elementQuery == some true && !q.isElem then .error .InvalidArgumentValue
    else if elementQuery == some false && q.isElem then .error .InvalidArgumentValue
    else .ok q

end Query
end Nimble
