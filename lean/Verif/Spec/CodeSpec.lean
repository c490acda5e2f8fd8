import Verif.Task.Code

/-!
# What a piece of code means as a script

The variables of a script are seen by its functions.  `Value` and `Runs` are the usual big-step semantics.
-/

namespace Rocketry.Spec
open Rocketry.Code

variable {V : Type}

/-- The meaning of a name in a script: a parameter of the functions around it, a variable of the script, a builtin. -/
inductive NameIs (o : Outside V) (vars : Vars V) (fr : List (String × Val V)) (x : String) : Except CErr (Val V) → Prop
  | param {v : Val V} : inFrame fr x = some v → NameIs o vars fr x (.ok v)
  | var {v : Val V} : inFrame fr x = none → vars x = some v → NameIs o vars fr x (.ok v)
  | builtin {v : V} : inFrame fr x = none → vars x = none → o.builtin x = some v → NameIs o vars fr x (.ok (.base v))
  | unknown : inFrame fr x = none → vars x = none → o.builtin x = none → NameIs o vars fr x (.error (.name x))

/-- The value of an expression of a script inside of functions whose parameters are `fr`. -/
inductive Value (o : Outside V) (vars : Vars V) : List (String × Val V) → Expr V → Except CErr (Val V) → Prop
  | const {fr : List (String × Val V)} {v : V} : Value o vars fr (.const v) (.ok (.base v))
  | name {fr : List (String × Val V)} {x : String} {r : Except CErr (Val V)} : NameIs o vars fr x r → Value o vars fr (.name x) r
  | op {fr : List (String × Val V)} {k : Nat} {a b : Expr V} {u v : Val V} :
      Value o vars fr a (.ok u) → Value o vars fr b (.ok v) → Value o vars fr (.op k a b) ((o.op k u v).map .base)
  | opL {fr : List (String × Val V)} {k : Nat} {a b : Expr V} {e : CErr} :
      Value o vars fr a (.error e) → Value o vars fr (.op k a b) (.error e)
  | opR {fr : List (String × Val V)} {k : Nat} {a b : Expr V} {u : Val V} {e : CErr} :
      Value o vars fr a (.ok u) → Value o vars fr b (.error e) → Value o vars fr (.op k a b) (.error e)
  | app {fr : List (String × Val V)} {f a : Expr V} {w : V} {v : Val V} :
      Value o vars fr f (.ok (.base w)) → Value o vars fr a (.ok v) → Value o vars fr (.call f a) ((o.app w v).map .base)
  | call {fr cap : List (String × Val V)} {f a body : Expr V} {p : String} {v : Val V} {r : Except CErr (Val V)} :
      Value o vars fr f (.ok (.fn cap p body)) → Value o vars fr a (.ok v) → Value o vars ((p, v) :: cap) body r →
      Value o vars fr (.call f a) r
  | callL {fr : List (String × Val V)} {f a : Expr V} {e : CErr} :
      Value o vars fr f (.error e) → Value o vars fr (.call f a) (.error e)
  | callR {fr : List (String × Val V)} {f a : Expr V} {g : Val V} {e : CErr} :
      Value o vars fr f (.ok g) → Value o vars fr a (.error e) → Value o vars fr (.call f a) (.error e)
  | lam {fr : List (String × Val V)} {p : String} {body : Expr V} : Value o vars fr (.lam p body) (.ok (.fn fr p body))

/-- A statement of a script changes the variables or raises an exception. -/
inductive Runs (o : Outside V) : Vars V → Stmt V → Except CErr (Vars V) → Prop
  | pass {d : Vars V} : Runs o d .pass (.ok d)
  | assign {d : Vars V} {x : String} {e : Expr V} {v : Val V} :
      Value o d [] e (.ok v) → Runs o d (.assign x e) (.ok fun y => if y = x then some v else d y)
  | assignE {d : Vars V} {x : String} {e : Expr V} {err : CErr} :
      Value o d [] e (.error err) → Runs o d (.assign x e) (.error err)
  | expr {d : Vars V} {e : Expr V} {v : Val V} : Value o d [] e (.ok v) → Runs o d (.expr e) (.ok d)
  | exprE {d : Vars V} {e : Expr V} {err : CErr} : Value o d [] e (.error err) → Runs o d (.expr e) (.error err)
  | iteT {d : Vars V} {e : Expr V} {v : Val V} {a b : Stmt V} {r : Except CErr (Vars V)} :
      Value o d [] e (.ok v) → o.truth v = true → Runs o d a r → Runs o d (.ite e a b) r
  | iteF {d : Vars V} {e : Expr V} {v : Val V} {a b : Stmt V} {r : Except CErr (Vars V)} :
      Value o d [] e (.ok v) → o.truth v = false → Runs o d b r → Runs o d (.ite e a b) r
  | iteE {d : Vars V} {e : Expr V} {a b : Stmt V} {err : CErr} :
      Value o d [] e (.error err) → Runs o d (.ite e a b) (.error err)
  | loopT {d d' : Vars V} {e : Expr V} {v : Val V} {a : Stmt V} {r : Except CErr (Vars V)} :
      Value o d [] e (.ok v) → o.truth v = true → Runs o d a (.ok d') → Runs o d' (.loop e a) r → Runs o d (.loop e a) r
  | loopB {d : Vars V} {e : Expr V} {v : Val V} {a : Stmt V} {err : CErr} :
      Value o d [] e (.ok v) → o.truth v = true → Runs o d a (.error err) → Runs o d (.loop e a) (.error err)
  | loopF {d : Vars V} {e : Expr V} {v : Val V} {a : Stmt V} :
      Value o d [] e (.ok v) → o.truth v = false → Runs o d (.loop e a) (.ok d)
  | loopE {d : Vars V} {e : Expr V} {a : Stmt V} {err : CErr} :
      Value o d [] e (.error err) → Runs o d (.loop e a) (.error err)
  | seq {d d' : Vars V} {a b : Stmt V} {r : Except CErr (Vars V)} :
      Runs o d a (.ok d') → Runs o d' b r → Runs o d (.seq a b) r
  | seqE {d : Vars V} {a b : Stmt V} {err : CErr} : Runs o d a (.error err) → Runs o d (.seq a b) (.error err)

/-- A script that begins with the parameters as its variables: the variable `output` at the end, or the exception. -/
inductive ScriptGives (o : Outside V) (output : String) (params : String → Option V) (code : Stmt V) :
    Except CErr (Option (Val V)) → Prop
  | ok {d : Vars V} : Runs o (fun x => (params x).map Val.base) code (.ok d) →
      ScriptGives o output params code (.ok (d output))
  | error {e : CErr} : Runs o (fun x => (params x).map Val.base) code (.error e) →
      ScriptGives o output params code (.error e)

/-- Names in an expression inside of functions with the parameters `bound` that are free there are not in `N`. -/
def ClosedIn (N : String → Prop) : List String → Expr V → Prop
  | _, .const _ => True
  | bound, .name x => x ∈ bound ∨ ¬ N x
  | bound, .op _ a b => ClosedIn N bound a ∧ ClosedIn N bound b
  | bound, .call f a => ClosedIn N bound f ∧ ClosedIn N bound a
  | bound, .lam p body => ClosedIn N (p :: bound) body

/-- The functions in an expression of the code do not use the names `N`. -/
def FunctionsAvoid (N : String → Prop) : Expr V → Prop
  | .const _ => True
  | .name _ => True
  | .op _ a b => FunctionsAvoid N a ∧ FunctionsAvoid N b
  | .call f a => FunctionsAvoid N f ∧ FunctionsAvoid N a
  | .lam p body => ClosedIn N [p] body

def CodeAvoids (N : String → Prop) : Stmt V → Prop
  | .pass => True
  | .assign _ e => FunctionsAvoid N e
  | .expr e => FunctionsAvoid N e
  | .ite e a b => FunctionsAvoid N e ∧ CodeAvoids N a ∧ CodeAvoids N b
  | .loop e a => FunctionsAvoid N e ∧ CodeAvoids N a
  | .seq a b => CodeAvoids N a ∧ CodeAvoids N b

/-- The variables the code sets. -/
def sets : Stmt V → List String
  | .pass => []
  | .assign x _ => [x]
  | .expr _ => []
  | .ite _ a b => sets a ++ sets b
  | .loop _ a => sets a
  | .seq a b => sets a ++ sets b

/-- The functions in the code use neither parameters of the task nor variables of the code. -/
def NoOuterUse (params : String → Option V) (code : Stmt V) : Prop :=
  CodeAvoids (fun x => params x ≠ none ∨ x ∈ sets code) code

end Rocketry.Spec
