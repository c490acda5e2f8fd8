import Verif.Base.Dict
import Verif.Base.ExceptEq

/-!
# Model of log queries

The query language of rocketry/pybox/query (base.py, parse.py, string.py) and the filters that `TaskAdapter` adds
(rocketry/core/log/adapter.py:53-79, 102-114).  Values are numbers and texts.  Simplified: a date is a number here, so
the conversion of a text that is compared with a date (base.py:107-112) is taken as done.
What `re.match` answers is given from outside.
-/

namespace Rocketry.Query

inductive Val where
  | num (n : Int)
  | text (s : String)
  deriving DecidableEq, Repr

inductive QErr where | key | type | value
  deriving DecidableEq, Repr

/-- A record, as a dictionary. -/
abbrev Item := Dict Val

/-- Either side of a comparison: `Key(name)` (base.py:56-59) or a value. -/
inductive Operand where
  | key (name : String)
  | val (v : Val)
  deriving DecidableEq, Repr

inductive Op where | eq | ne | gt | ge | lt | le
  deriving DecidableEq, Repr

/-- The last line of each `match` (base.py:168, 186, 204, 222, 240, 258), `left <op> right` in Python:
numbers and texts have no order between them. -/
def Op.eval : Op → Val → Val → Except QErr Bool
  | .eq, a, b => .ok (decide (a = b))
  | .ne, a, b => .ok (decide (a ≠ b))
  | .gt, .num a, .num b => .ok (decide (a > b))
  | .ge, .num a, .num b => .ok (decide (a ≥ b))
  | .lt, .num a, .num b => .ok (decide (a < b))
  | .le, .num a, .num b => .ok (decide (a ≤ b))
  | .gt, .text a, .text b => .ok (decide (a > b))
  | .ge, .text a, .text b => .ok (decide (b ≤ a))
  | .lt, .text a, .text b => .ok (decide (a < b))
  | .le, .text a, .text b => .ok (decide (a ≤ b))
  | _, _, _ => .error .type

/-- Query expressions: base.py:114-276 (`All`, `Any`, `Not`, comparisons, `Boolean`), string.py:6-31 (`Regex`). -/
inductive Expr where
  | cmp (op : Op) (left right : Operand)
  | regex (key : String) (pattern : Val)
  | all (args : List Expr)
  | any (args : List Expr)
  | not (e : Expr)
  | bool (b : Bool)

/-- `_get_value`, base.py:8-9. -/
def Operand.get (item : Item) : Operand → Except QErr Val
  | .val v => .ok v
  | .key n => match Dict.find item n with
    | none => .error .key
    | some v => .ok v

/-- `match` of the comparisons, base.py:164-168, 182-186, 200-204, 218-222, 236-240, 254-258. -/
def cmpMatch (item : Item) (op : Op) (l r : Operand) : Except QErr Bool := match l.get item with
  | .error e => .error e
  | .ok a => match r.get item with
    | .error e => .error e
    | .ok b => op.eval a b

/-- `Regex.match`, string.py:27-28; the value is read (base.py:85-86) before the pattern is used. -/
def regexMatch (re : String → String → Bool) (item : Item) (k : String) (p : Val) : Except QErr Bool :=
  match Dict.find item k with
  | none => .error .key
  | some (.text s) => match p with
    | .text p => .ok (re p s)
    | _ => .error .type
  | some _ => .error .type

/-- `match`: base.py:119-120 (`all(...)`, which stops at the first false), 137-138 (`any(...)`, at the first true),
151-152, 272-273 and the comparisons. -/
def Expr.holds (re : String → String → Bool) (item : Item) : Expr → Except QErr Bool
  | .cmp op l r => cmpMatch item op l r
  | .regex k p => regexMatch re item k p
  | .all l => allHold re item l
  | .any l => anyHolds re item l
  | .not e => match e.holds re item with
    | .error x => .error x
    | .ok b => .ok (!b)
  | .bool b => .ok b
where
  allHold (re : String → String → Bool) (item : Item) : List Expr → Except QErr Bool
    | [] => .ok true
    | e :: l => match e.holds re item with
      | .error x => .error x
      | .ok false => .ok false
      | .ok true => allHold re item l
  anyHolds (re : String → String → Bool) (item : Item) : List Expr → Except QErr Bool
    | [] => .ok false
    | e :: l => match e.holds re item with
      | .error x => .error x
      | .ok true => .ok true
      | .ok false => anyHolds re item l

/-- What an operand of `&` contributes, base.py:91-94. -/
def allParts : Expr → List Expr
  | .all l => l
  | e => [e]

/-- `a & b`, base.py:90-95. -/
def Expr.and (a b : Expr) : Expr := .all (allParts a ++ allParts b)

/-- `statement = substatement if statement is None else statement & substatement`, over all substatements, and
`true` if there is none (parse.py:49-61, 80-101, 116-142). -/
def conj : List Expr → Expr
  | [] => .bool true
  | e :: l => l.foldl Expr.and e

/-- `filter`, base.py:11-15; an exception ends the iteration. -/
def Expr.filter (re : String → String → Bool) (e : Expr) : List Item → Except QErr (List Item)
  | [] => .ok []
  | i :: rest => match e.holds re i with
    | .error x => .error x
    | .ok b => match e.filter re rest with
      | .error x => .error x
      | .ok l => .ok (if b then i :: l else l)

/-! ### Parsers -/

/-- A keyword filter: a value, a range (a tuple) or a list, parse.py:119-133.
Simplified: tuples of another length (ValueError) do not occur. -/
inductive Filter where
  | is (v : Val)
  | range (min max : Option Val)
  | oneOf (l : List Val)
  deriving DecidableEq, Repr

/-- The statement for one keyword, parse.py:119-133; `none`: `continue`. -/
def kwStatement (k : String) : Filter → Option Expr
  | .is v => some (.cmp .eq (.key k) (.val v))
  | .range (some a) (some b) => some (Expr.and (.cmp .ge (.key k) (.val a)) (.cmp .le (.key k) (.val b)))
  | .range (some a) none => some (.cmp .ge (.key k) (.val a))
  | .range none (some b) => some (.cmp .le (.key k) (.val b))
  | .range none none => none
  | .oneOf l => some (.any (l.map fun v => .cmp .eq (.key k) (.val v)))

/-- `from_kwargs`, parse.py:103-142. -/
def fromKwargs (kw : Dict Filter) : Expr := conj (kw.filterMap fun x => kwStatement x.1 x.2)

/-- `key.split('$')`, parse.py:28. -/
def cut : List Char → List (List Char)
  | [] => [[]]
  | c :: l => if c = '$' then [] :: cut l else match cut l with
    | [] => [[c]]
    | w :: r => (c :: w) :: r

/-- `_get_operation`, parse.py:20-31: `key.split('$')` must give two parts, the second one an operator. -/
def operation (k : String) (v : Val) : Except QErr Expr := match (cut k.toList).map String.ofList with
  | [_] => .ok (.cmp .eq (.key k) (.val v))
  | [key, oper] =>
    if oper = "min" then .ok (.cmp .ge (.key key) (.val v))
    else if oper = "max" then .ok (.cmp .le (.key key) (.val v))
    else if oper = "not" then .ok (.cmp .ne (.key key) (.val v))
    else if oper = "regex" then .ok (.regex key v)
    else .error .key
  | _ => .error .value

/-- The operations of a list of pairs, in order (parse.py:51-52, 81-82). -/
def operations : List (String × Val) → Except QErr (List (String × Expr))
  | [] => .ok []
  | (k, v) :: l => match operation k v with
    | .error e => .error e
    | .ok o => match operations l with
      | .error e => .error e
      | .ok l => .ok ((k, o) :: l)

/-- `from_dict`, parse.py:33-61. -/
def fromDict (d : Dict Val) : Except QErr Expr := match operations d with
  | .error e => .error e
  | .ok l => .ok (conj (l.map (·.2)))

/-- How often a key occurs, parse.py:78. -/
def keyCount (l : List (String × Expr)) (k : String) : Nat := l.countP (fun x => decide (x.1 = k))

/-- `from_tuples`, parse.py:63-101: all pairs whose key occurs several times go into one `Any`, whatever their keys. -/
def fromTuples (l : List (String × Val)) : Except QErr Expr := match operations l with
  | .error e => .error e
  | .ok ops =>
    let multi := ops.filter fun x => decide (keyCount ops x.1 > 1)
    let single := ops.filter fun x => !decide (keyCount ops x.1 > 1)
    .ok (conj (single.map (·.2) ++ if multi.isEmpty then [] else [.any (multi.map (·.2))]))

/-! ### The log of a task -/

/-- `TaskAdapter.filter_by`, adapter.py:53-57: the name of the task is put among the keywords. -/
def adapterKwargs (task : Option String) (kw : Dict Filter) : Dict Filter := match task with
  | none => kw
  | some t => Dict.put kw "task_name" (.is (.text t))

/-- `repo.filter_by`, adapter.py:59.  A record has all the fields asked for: the repository (package redbird,
not part of the project) is taken to select by equality, by range and by membership. -/
def repoMatch (kw : Dict Filter) (i : Item) : Bool := kw.all fun x => match Dict.find i x.1 with
  | none => false
  | some v => match x.2 with
    | .is w => decide (v = w)
    | .range lo hi => (match lo with
        | none => true
        | some a => decide (Op.eval .ge v a = .ok true)) &&
      (match hi with
        | none => true
        | some b => decide (Op.eval .le v b = .ok true))
    | .oneOf l => l.contains v

/-- `TaskAdapter.get_records`, adapter.py:61-79. -/
def getRecords (task : Option String) (kw : Dict Filter) (log : List Item) : List Item :=
  log.filter (repoMatch (adapterKwargs task kw))

/-- `TaskAdapter.get_latest`, adapter.py:102-114. -/
def getLatest (task : Option String) (action : Option String) (log : List Item) : Option Item :=
  (getRecords task (match action with
    | none => []
    | some a => [("action", .is (.text a))]) log).getLast?

end Rocketry.Query
