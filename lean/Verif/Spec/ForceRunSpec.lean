import Verif.Task.ForceRun

/-!
# What is expected of `force_run`

rocketry/core/task.py:136-139: "If True, the task will be run once regardless of the start_cond".
-/

namespace Rocketry.Spec
open Rocketry.ForceRun
open Rocketry.Sched (Batch)

/-- The runs asked for, in order: an empty one for each assignment of `True`, and those of `run`. -/
def ordersOf : List Note → List Batch
  | [] => []
  | .assigned true :: l => [] :: ordersOf l
  | .asked b :: l => b :: ordersOf l
  | _ :: l => ordersOf l

/-- The batches with which runs were started, in order. -/
def servedOrders : List Note → List Batch
  | [] => []
  | .took (some b) :: l => b :: servedOrders l
  | _ :: l => servedOrders l

/-- Whether the last word was `True`, and no run was started since: what a reader of the attribute takes it for. -/
def stillForced : Bool → List Note → Bool
  | f, [] => f
  | _, .assigned v :: l => stillForced v l
  | _, .took _ :: l => stillForced false l
  | f, .asked _ :: l => stillForced f l

/-- Nobody touches the task between the reset of the attribute and the taking of the batch. -/
def NoneBetween : Doing → Prop
  | .own _ => True
  | .turn _ _ early _ _ => early = []
  | .start early _ _ => early = []

/-- Nobody touches the task while it is being started, its parameters can be made, and there is no `run`. -/
def OnlyForced : Doing → Prop
  | .own (.assign _) => True
  | .own (.run _) => False
  | .turn _ _ early late params => early = [] ∧ late = [] ∧ params = true
  | .start early late params => early = [] ∧ late = [] ∧ params = true

/-- The attribute is only assigned `True` if it is not already meant so, and `False` only if it is not meant so
either. -/
def Sparing : Bool → List Note → Prop
  | _, [] => True
  | f, .assigned v :: l => f = false ∧ Sparing v l
  | _, .took _ :: l => Sparing false l
  | f, .asked _ :: l => Sparing f l

end Rocketry.Spec
