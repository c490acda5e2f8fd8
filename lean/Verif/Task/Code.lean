/-!
# Model of tasks given by a piece of code

`CodeTask.execute` (rocketry/tasks/code.py:51-55): `exec(self.code, glob, loc)` with an empty dictionary for the globals
and the parameters as locals.  The code is a syntax tree of a small part of Python: assignments, `if`, `while`,
expressions with operators, functions of one parameter and calls; expressions have no side effects on variables.
-/

namespace Rocketry.Code

/-- Exceptions: `NameError`, and those of operators and calls. -/
inductive CErr where
  | name (x : String)
  | other (k : Nat)
  deriving DecidableEq, Repr

/-- Expressions over plain values `V`. -/
inductive Expr (V : Type) where
  | const (v : V)
  | name (x : String)
  /-- an operator, by number -/
  | op (k : Nat) (a b : Expr V)
  | call (f a : Expr V)
  /-- `lambda p: body`; also `def f(p): return body`, which is an assignment of it -/
  | lam (p : String) (body : Expr V)

/-- Statements. -/
inductive Stmt (V : Type) where
  | pass
  | assign (x : String) (e : Expr V)
  | expr (e : Expr V)
  | ite (e : Expr V) (a b : Stmt V)
  | loop (e : Expr V) (body : Stmt V)
  | seq (a b : Stmt V)

/-- Values: plain ones, and functions made by the code, with the values of the parameters of the functions they were made
in. -/
inductive Val (V : Type) where
  | base (v : V)
  | fn (cap : List (String × Val V)) (p : String) (body : Expr V)

variable {V : Type}

/-- What comes from outside of the code: the builtins, operators, calls of plain values (functions from elsewhere; simplified:
what they give, and what operators give, is a plain value), the truth of values. -/
structure Outside (V : Type) where
  builtin : String → Option V
  op : Nat → Val V → Val V → Except CErr V
  app : V → Val V → Except CErr V
  truth : Val V → Bool

/-- Variables. -/
abbrev Vars (V : Type) := String → Option (Val V)

/-- `d[x] = v`. -/
def Vars.put (d : Vars V) (x : String) (v : Val V) : Vars V := fun y => if y = x then some v else d y

/-- `frame[x]`, of the parameters of a function and of those around it. -/
def inFrame : List (String × Val V) → String → Option (Val V)
  | [], _ => none
  | (y, v) :: l, x => if y = x then some v else inFrame l x

/-- The value of a name among the globals, which are empty (code.py:53) but for the builtins that `exec` puts there. -/
def global (o : Outside V) (x : String) : Except CErr (Val V) := match o.builtin x with
  | some v => .ok (.base v)
  | none => .error (.name x)

/-- The value of a name: in the code itself (`none`) the locals come first; a function has its own parameters and those of
the functions around it, and the globals, but not the locals of the code. -/
def lookupName (o : Outside V) (loc : Vars V) (fr : Option (List (String × Val V))) (x : String) :
    Except CErr (Val V) := match fr with
  | none => match loc x with
    | some v => .ok v
    | none => global o x
  | some l => match inFrame l x with
    | some v => .ok v
    | none => global o x

/-- The value of an expression; `none`: not finished with this fuel. -/
def eval (o : Outside V) : Nat → Vars V → Option (List (String × Val V)) → Expr V → Option (Except CErr (Val V))
  | 0, _, _, _ => none
  | n + 1, loc, fr, e => match e with
    | .const v => some (.ok (.base v))
    | .name x => some (lookupName o loc fr x)
    | .op k a b => match eval o n loc fr a with
      | none => none
      | some (.error x) => some (.error x)
      | some (.ok u) => match eval o n loc fr b with
        | none => none
        | some (.error x) => some (.error x)
        | some (.ok v) => some ((o.op k u v).map .base)
    | .call f a => match eval o n loc fr f with
      | none => none
      | some (.error x) => some (.error x)
      | some (.ok g) => match eval o n loc fr a with
        | none => none
        | some (.error x) => some (.error x)
        | some (.ok v) => match g with
          | .base w => some ((o.app w v).map .base)
          | .fn cap p body => eval o n loc (some ((p, v) :: cap)) body
    | .lam p body => some (.ok (.fn (fr.getD []) p body))

/-- What a statement makes of the locals, or the exception. -/
def exec (o : Outside V) : Nat → Vars V → Stmt V → Option (Except CErr (Vars V))
  | 0, _, _ => none
  | n + 1, loc, s => match s with
    | .pass => some (.ok loc)
    | .assign x e => match eval o n loc none e with
      | none => none
      | some (.error x) => some (.error x)
      | some (.ok v) => some (.ok (loc.put x v))
    | .expr e => match eval o n loc none e with
      | none => none
      | some (.error x) => some (.error x)
      | some (.ok _) => some (.ok loc)
    | .ite e a b => match eval o n loc none e with
      | none => none
      | some (.error x) => some (.error x)
      | some (.ok v) => exec o n loc (if o.truth v then a else b)
    | .loop e body => match eval o n loc none e with
      | none => none
      | some (.error x) => some (.error x)
      | some (.ok v) => if o.truth v then match exec o n loc body with
          | none => none
          | some (.error x) => some (.error x)
          | some (.ok loc) => exec o n loc (.loop e body)
        else some (.ok loc)
    | .seq a b => match exec o n loc a with
      | none => none
      | some (.error x) => some (.error x)
      | some (.ok loc) => exec o n loc b

/-- `CodeTask.execute`, code.py:51-55: the return value is the variable `output_variable` (line 48), `none` is `None`. -/
def runCode (o : Outside V) (output : String) (n : Nat) (params : String → Option V) (code : Stmt V) :
    Option (Except CErr (Option (Val V))) := match exec o n (fun x => (params x).map Val.base) code with
  | none => none
  | some (.error x) => some (.error x)
  | some (.ok loc) => some (.ok (loc output))

end Rocketry.Code
