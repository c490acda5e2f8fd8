import Verif.Base.Text
import Verif.Cond.Cond
import Verif.Time.Period

/-!
# Model of the condition and time string parsers

`rocketry/parse/utils/string_parser.py`, `rocketry/pybox/string/parse/closure.py`,
`rocketry/pybox/container/visitor.py`, `rocketry/parse/_condition/string.py` and `rocketry/parse/_time/string.py`.
What an item ("daily", "after task 'x'") means is decided by registered item parsers; here an arbitrary function that
may raise.
-/

namespace Rocketry

/-- The characters removed by `str.strip()`, restricted to ASCII. -/
def isSpace (c : Char) : Bool :=
  c == ' ' || c == '\t' || c == '\n' || c == '\r' || c == '\x0b' || c == '\x0c' || c == '\x1c' || c == '\x1d' ||
    c == '\x1e' || c == '\x1f'

/-- `s.strip()` -/
def strip (s : List Char) : List Char := ((s.dropWhile isSpace).reverse.dropWhile isSpace).reverse

/-! ### `ClosureParser` -/

/-- `find_outer_indices(string)`, closure.py:49-74 with `_get_next_element`, 80-88, as a single scan: position, number
of openings and closings so far, position of the first opening and of the last closing.  Running out of brackets is
`min` of an empty dictionary. -/
def findOuter : List Char → Nat → Nat → Nat → Nat → Nat → Except PyErr (Nat × Nat)
  | [], _, _, _, _, _ => .error .value
  | ch :: s, i, o, c, first, last =>
    if ch = '(' then
      let first := if o = 0 then i else first
      if o + 1 = c then .ok (first, last) else findOuter s (i + 1) (o + 1) c first last
    else if ch = ')' then
      if o = c + 1 then .ok (first, i) else findOuter s (i + 1) o (c + 1) first i
    else findOuter s (i + 1) o c first last

/-- Nested lists of strings. -/
inductive PTree where
  | str (s : List Char)
  | sub (l : List PTree)

/-- `to_list(string)`, closure.py:23-47.  The fuel bounds the number of bracket pairs handled (`toList` gives enough for
every string, `toList_fuel`); Python's limit on the nesting depth is not modelled. -/
def toListAux : Nat → List Char → Except PyErr (List PTree)
  | 0, _ => .error .recursion
  | n + 1, s =>
    if '(' ∈ s then
      match findOuter s 0 0 0 0 0 with
      | .error e => .error e
      | .ok (st, en) =>
        match toListAux n ((s.take en).drop (st + 1)) with
        | .error e => .error e
        | .ok subres =>
          match toListAux n (s.drop (en + 1)) with
          | .error e => .error e
          | .ok rest => .ok ((if (s.take st).isEmpty then [] else [PTree.str (s.take st)]) ++ PTree.sub subres :: rest)
    else .ok (if s.isEmpty then [] else [PTree.str s])

def toList (s : List Char) : Except PyErr (List PTree) := toListAux (s.length + 1) s

/-! ### `InstructionParser` -/

/-- `re.split('([&|~])', s)`: the pieces between the symbols and the symbols, in order. -/
def splitKeep (syms : List Char) : List Char → List (List Char)
  | [] => [[]]
  | c :: s =>
    if c ∈ syms then [] :: [c] :: splitKeep syms s
    else
      match splitKeep syms s with
      | p :: ps => (c :: p) :: ps
      | [] => [[c]]

/-- `_split_operations(s)`, string_parser.py:121-137; a tuple of pieces is flattened into the surrounding list
afterwards (`_flatten_tuples`, 140-148), so the result is the list of pieces. -/
def splitOperations (syms : List Char) (s : List Char) : List (List Char) :=
  let s := strip s
  if s.any (fun c => c ∈ syms) then (splitKeep syms s).filter (fun p => !(strip p).isEmpty) else [s]

mutual
/-- The assignments of `_split_operations` to all strings of the nested list and `_flatten_tuples`,
string_parser.py:39-42. -/
def splitTrees (syms : List Char) : List PTree → List PTree
  | [] => []
  | t :: l => splitTree syms t ++ splitTrees syms l

/-- One element of `splitTrees`. -/
def splitTree (syms : List Char) : PTree → List PTree
  | .str s => (splitOperations syms s).map .str
  | .sub l => [.sub (splitTrees syms l)]
end

/-- An element of the parsed lists: an operator left as a string or an object made by an item parser or operator. -/
inductive Tok (C : Type) where
  | op (c : Char)
  | val (c : C)

inductive TTree (C : Type) where
  | tok (t : Tok C)
  | sub (l : List (TTree C))

variable {C : Type}

/-- `parse_string(s)`, string_parser.py:51-55. -/
def parseString (item : List Char → Except PyErr C) (s : List Char) : Except PyErr (Tok C) :=
  if strip s = ['&'] then .ok (.op '&')
  else if strip s = ['|'] then .ok (.op '|')
  else if strip s = ['~'] then .ok (.op '~')
  else
    match item (strip s) with
    | .ok c => .ok (.val c)
    | .error e => .error e

mutual
/-- `v.assign_elements(l, self._parse)`, string_parser.py:44 and visitor.py:63-86. -/
def parseTrees (item : List Char → Except PyErr C) : List PTree → Except PyErr (List (TTree C))
  | [] => .ok []
  | t :: l =>
    match parseTree item t with
    | .error e => .error e
    | .ok t =>
      match parseTrees item l with
      | .error e => .error e
      | .ok ts => .ok (t :: ts)

/-- One element of `parseTrees`. -/
def parseTree (item : List Char → Except PyErr C) : PTree → Except PyErr (TTree C)
  | .str s =>
    match parseString item s with
    | .error e => .error e
    | .ok t => .ok (.tok t)
  | .sub l =>
    match parseTrees item l with
    | .error e => .error e
    | .ok ts => .ok (.sub ts)
end

/-- An entry of `operators`: symbol, side and function.  The functions receive elements of the list, which may be
operator strings.  The side "left" is not used by the two parsers and is not modelled. -/
inductive Oper (C : Type) where
  | right (symbol : Char) (f : Tok C → Except PyErr C)
  | both (symbol : Char) (f : Tok C → Tok C → Except PyErr C)

def Oper.symbol : Oper C → Char
  | .right s _ => s
  | .both s _ => s

/-- `e == oper_str` for an element of the list. -/
def Tok.isOp (c : Char) : Tok C → Bool
  | .op d => d == c
  | .val _ => false

/-- `s[i]` with `i = pos - 1`: position −1 is the last element. -/
def prevIndex (len pos : Nat) : Nat := if pos = 0 then len - 1 else pos - 1

/-- One round of the loop of `_assemble_oper`, string_parser.py:83-102; `s` is the reversed list and `pos` the position
of the operator. -/
def operStep (op : Oper C) (s : List (Tok C)) (pos : Nat) : Except PyErr (List (Tok C)) :=
  match op with
  | .both _ f =>
    match s[pos + 1]?, s[prevIndex s.length pos]? with
    | some l, some r =>
      match f l r with
      | .error e => .error e
      | .ok obj =>
        let s := s.set pos (.val obj)
        let s := s.eraseIdx (prevIndex s.length pos)
        if pos < s.length then .ok (s.eraseIdx pos) else .error .index
    | _, _ => .error .index
  | .right _ f =>
    match s[prevIndex s.length pos]? with
    | none => .error .index
    | some x =>
      match f x with
      | .error e => .error e
      | .ok obj => .ok ((s.set (prevIndex s.length pos) (.val obj)).eraseIdx pos)

/-- The loop of `_assemble_oper`, string_parser.py:82-102, on the reversed list.  Every round removes an operator, so
the length of the list is enough fuel. -/
def operLoop (op : Oper C) : Nat → List (Tok C) → Except PyErr (List (Tok C))
  | n, s =>
    match s.findIdx? (Tok.isOp op.symbol) with
    | none => .ok s
    | some pos =>
      match n with
      | 0 => .error .runtime
      | n + 1 =>
        match operStep op s pos with
        | .error e => .error e
        | .ok s => operLoop op n s

/-- `_assemble_oper(s, …)`, string_parser.py:80-104. -/
def assembleOper (op : Oper C) (s : List (Tok C)) : Except PyErr (List (Tok C)) :=
  match operLoop op s.length s.reverse with
  | .error e => .error e
  | .ok s => .ok s.reverse

/-- The loop over the operators in `_assemble`, string_parser.py:70-74. -/
def assembleOpers : List (Oper C) → List (Tok C) → Except PyErr (List (Tok C))
  | [], s => .ok s
  | op :: ops, s =>
    match assembleOper op s with
    | .error e => .error e
    | .ok s => assembleOpers ops s

/-- `_assemble(*s)`, string_parser.py:61-78: what follows the first element is ignored. -/
def assemble (ops : List (Oper C)) (s : List (Tok C)) : Except PyErr (Tok C) :=
  match assembleOpers ops s with
  | .error e => .error e
  | .ok [] => .error .index
  | .ok (t :: _) => .ok t

mutual
/-- The arguments collected by `reduce`, visitor.py:101-118. -/
def reduceArgs (ops : List (Oper C)) : List (TTree C) → Except PyErr (List (Tok C))
  | [] => .ok []
  | t :: l =>
    match reduceArg ops t with
    | .error e => .error e
    | .ok t =>
      match reduceArgs ops l with
      | .error e => .error e
      | .ok ts => .ok (t :: ts)

/-- One element of `reduceArgs`. -/
def reduceArg (ops : List (Oper C)) : TTree C → Except PyErr (Tok C)
  | .tok t => .ok t
  | .sub l =>
    match reduceArgs ops l with
    | .error e => .error e
    | .ok args => assemble ops args
end

/-- `InstructionParser.__call__`, string_parser.py:18-47. -/
def instructionParse (item : List Char → Except PyErr C) (ops : List (Oper C)) (s : List Char) : Except PyErr (Tok C) :=
  match toList s with
  | .error e => .error e
  | .ok l =>
    match parseTrees item (splitTrees (ops.map Oper.symbol) l) with
    | .error e => .error e
    | .ok ts =>
      match reduceArgs ops ts with
      | .error e => .error e
      | .ok args => assemble ops args

/-! ### the two parsers -/

variable {L : Type}

/-- A list element as a condition: an operator left over as a string ends up among the subconditions, where observing it
raises; `strLeaf` is the leaf standing for such a string. -/
def Tok.cond (strLeaf : Char → L) : Tok (Cond L) → Cond L
  | .op c => .leaf (strLeaf c)
  | .val c => c

/-- `operators` of the condition parser, parse/_condition/string.py:5-46. `_parse_any`/`_parse_all` flatten first and
then call `Any(*comps)`/`All(*comps)`; `_parse_not` inverts. -/
def condOpers (strLeaf : Char → L) : List (Oper (Cond L)) :=
  [.right '~' (fun x => .ok (x.cond strLeaf).invert),
   .both '&' (fun x y => .ok (Cond.mkAll ([x.cond strLeaf, y.cond strLeaf].flatMap Cond.allParts))),
   .both '|' (fun x y => .ok (Cond.mkAny ([x.cond strLeaf, y.cond strLeaf].flatMap Cond.anyParts)))]

/-- `parse_condition(s)` for a string, parse/condition.py:6-9 (setting `_str` on a string raises). -/
def parseCondition (strLeaf : Char → L) (item : List Char → Except PyErr (Cond L)) (s : List Char) :
    Except PyErr (Cond L) :=
  match instructionParse item (condOpers strLeaf) s with
  | .error e => .error e
  | .ok (.op _) => .error .attribute
  | .ok (.val c) => .ok c

/-- `_flatten(*args, types=All, with_attr="periods")`, parse/_time/string.py:5-12. -/
def allPeriodParts : Period → List Period
  | .all ps => ps
  | p => [p]

/-- `_flatten(*args, types=Any, with_attr="periods")`, parse/_time/string.py:5-12. -/
def anyPeriodParts : Period → List Period
  | .any ps => ps
  | p => [p]

/-- `operators` of the time parser, parse/_time/string.py:14-35; a string among the arguments is refused by
`All.__init__`/`Any.__init__`. -/
def timeOpers : List (Oper Period) :=
  [.both '&' (fun x y =>
     match x, y with
     | .val p, .val q => Period.mkAll ([p, q].flatMap allPeriodParts)
     | _, _ => .error .type),
   .both '|' (fun x y =>
     match x, y with
     | .val p, .val q => Period.mkAny ([p, q].flatMap anyPeriodParts)
     | _, _ => .error .type)]

/-- `parse_time(s)` for a string, parse/_time/string.py:22-36. -/
def parseTime (item : List Char → Except PyErr Period) (s : List Char) : Except PyErr (Tok Period) :=
  instructionParse item timeOpers s

end Rocketry
