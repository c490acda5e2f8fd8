import Verif.Task.Queue

/-!
# Specification vocabulary for the log queue
-/

namespace Rocketry.Spec
open Rocketry.Queue

/-- The records logged by process `p`, in this order. -/
def sentBy (p : Nat) (l : List Obs) : List Msg :=
  l.filterMap (fun o => match o with | .sent m => if m.proc = p then some m else none | _ => none)

/-- The records that came into the queue, in this order. -/
def arrivals (l : List Obs) : List Msg := l.filterMap (fun o => match o with | .arrived m => some m | _ => none)

/-- The records of process `p`. -/
def ofProc (p : Nat) (l : List Msg) : List Msg := l.filter (fun m => decide (m.proc = p))

/-- The return value in the latest record of a success of the task. -/
def latestReturn (task : String) (l : List Entry) : Option String :=
  match (l.filter (fun e => decide (e.task = task ∧ e.msg.action = .success))).getLast? with
  | none => none
  | some e => e.msg.ret

end Rocketry.Spec
