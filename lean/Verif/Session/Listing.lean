import Verif.Cond.Cond

/-!
# Model of the dependency listing

rocketry/utils/dependencies.py.
-/

namespace Rocketry.Listing
open Rocketry

/-- `DependFinish`, `DependSuccess`, `DependFailure` (dependencies.py:62, 66). -/
inductive Relation where | finish | success | failure
  deriving DecidableEq, Repr

/-- The conditions at the leaves: one of the three, with its `depend_task`, or another one.
Simplified: `depend_task` is a name here (it may also be a task or a function, which stand for their names,
session.py:199-211), and never None. -/
inductive DLeaf where
  | depend (r : Relation) (on : String)
  | other (n : Nat)
  deriving DecidableEq, Repr

/-- `type` of a link, dependencies.py:65: the class `Any` or `All`. -/
inductive Kind where | any | all
  deriving DecidableEq, Repr

/-- `Link`, dependencies.py:11-21; tasks are given by their names. -/
structure Link where
  parent : String
  child : String
  relation : Relation
  type : Option Kind
  deriving DecidableEq, Repr

/-- The tasks of the session with their start conditions. -/
abbrev Tasks := List (String × Cond DLeaf)

/-- The link for a condition, dependencies.py:62-65, 66-69; `none`: it is not one of the three, `error`: KeyError of
`self.session[req_task]`. -/
def linkOf (ts : Tasks) (child : String) (k : Option Kind) : Cond DLeaf → Except PyErr (Option Link)
  | .leaf (.depend r t) => if ts.any (fun x => decide (x.1 = t)) then .ok (some ⟨t, child, r, k⟩) else .error .key
  | _ => .ok none

/-- The loop over the conditions of an `Any` or `All`, dependencies.py:61-65. -/
def linksOf (ts : Tasks) (child : String) (k : Option Kind) : List (Cond DLeaf) → Except PyErr (List Link)
  | [] => .ok []
  | c :: l => match linkOf ts child k c with
    | .error e => .error e
    | .ok x => match linksOf ts child k l with
      | .error e => .error e
      | .ok r => .ok (x.toList ++ r)

/-- `_get_links`, dependencies.py:58-69. -/
def getLinks (ts : Tasks) (child : String) : Cond DLeaf → Except PyErr (List Link)
  | .any l => linksOf ts child (some .any) l
  | .all l => linksOf ts child (some .all) l
  | c => linksOf ts child none [c]

/-- The loop over some tasks, dependencies.py:54-56. -/
def linksFrom (ts : Tasks) : Tasks → Except PyErr (List Link)
  | [] => .ok []
  | (n, c) :: l => match getLinks ts n c with
    | .error e => .error e
    | .ok x => match linksFrom ts l with
      | .error e => .error e
      | .ok r => .ok (x ++ r)

/-- `get_dependencies`, dependencies.py:72-74. -/
def getDependencies (ts : Tasks) : Except PyErr (List Link) := linksFrom ts ts

end Rocketry.Listing
