import Verif.Session.Args

/-!
# What equal arguments should have in common
-/

namespace Rocketry.Spec
open Rocketry.Args

variable {V : Type}

/-- The surroundings of a run: a task and a session are given. -/
def inRun (c : Ctx V) : Ctx V := { c with task := true, session := true }

/-- Two values of parameters give a run the same. -/
def GivesSame (n : Nat) (c : Ctx V) (u v : PVal V) : Prop := pvalue n (inRun c) u = pvalue n (inRun c) v

/-- Two Parameters objects give a run the same: the same names, and the same for each. -/
def GiveSame (n : Nat) (c : Ctx V) (p q : Params V) : Prop := ∀ k, match Dict.find p k, Dict.find q k with
  | none, none => True
  | some u, some v => GivesSame n c u v
  | _, _ => False

/-- No secrets inside of pipes, and functions that answer the same whether they are called for a task or not. -/
inductive OpenArg (c : Ctx V) : Arg V → Prop
  | simple {v : V} : OpenArg c (.simple v)
  | sess {k : String} {d : Option V} : OpenArg c (.sess k d)
  | ret {t : String} {d : Option V} : OpenArg c (.ret t d)
  | env {x : String} {d : Option V} : OpenArg c (.env x d)
  | cli {x : String} {d : Option V} : OpenArg c (.cli x d)
  | func {f : Nat} {post : Option Bool} : c.func f true true = c.func f false false → OpenArg c (.func f post)
  | task : OpenArg c .task
  | pipe {l : List (Arg V)} : (∀ a ∈ l, OpenArg c a) → OpenArg c (.pipe l)

/-- A value of a parameter: secrets that are not inside of pipes are fine. -/
def OpenVal (c : Ctx V) : PVal V → Prop
  | .plain _ => True
  | .arg a => (∃ v, a = .priv v) ∨ OpenArg c a

/-- Both are no references to the same session parameter with different defaults. -/
def SameDefault (u v : PVal V) : Prop := ∀ k d d', u = .arg (.sess k d) → v = .arg (.sess k d') → d = d'

end Rocketry.Spec
