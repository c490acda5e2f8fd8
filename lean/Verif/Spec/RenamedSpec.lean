import Verif.Task.Renamed

/-!
# What the tasks did, whatever they were called (C107)
-/

namespace Rocketry.Spec
open Rocketry

/-- Something a task object did, and the name it had then. -/
structure Deed where
  author : Nat
  calledThen : String
  action : Action
  noted : Int
  created : Int
  deriving DecidableEq, Repr

/-- The deeds of all tasks, in order.  A name that a task of the session has is not given to another one. -/
def deeds : List Nat → (Nat → String) → List Named.Op → List Deed
  | _, _, [] => []
  | ids, nm, .log id a n c :: l => ⟨id, nm id, a, n, c⟩ :: deeds ids nm l
  | ids, nm, .rename id v :: l =>
    if ∃ i ∈ ids, nm i = v then deeds ids nm l else deeds ids (fun i => if i = id then v else nm i) l
  | ids, nm, .remove id :: l => deeds (ids.filter (fun i => decide (i ≠ id))) nm l

/-- The deeds of one task object. -/
def deedsOf (id : Nat) (l : List Deed) : List Deed := l.filter (fun d => decide (d.author = id))

/-- The last deed of a kind, by a reading of the clock. -/
def lastDeed (time : Deed → Int) (a : Action) (l : List Deed) : Option Int :=
  ((l.filter (fun d => decide (d.action = a))).getLast?).map time

end Rocketry.Spec
