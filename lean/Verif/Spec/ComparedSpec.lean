import Verif.Cond.Compared

/-!
# What a comparison says (C108)
-/

namespace Rocketry.Spec
open Rocketry Compared

/-- The relation an operator stands for. -/
def Stands : Comp → Int → Int → Prop
  | .eq, a, b => a = b
  | .ne, a, b => a ≠ b
  | .lt, a, b => a < b
  | .gt, a, b => a > b
  | .le, a, b => a ≤ b
  | .ge, a, b => a ≥ b

/-- What is counted by the conditions that stand for a number of things. -/
def countedBy : Written → Option Counts
  | .action v t => some (.actions v t none)
  | .timed v t p => some (.actions v t (some p))
  | .running t => some (.runs t none)
  | .counting c _ => some c
  | _ => none

/-- The value is a condition that holds exactly if the number stands in the relation. -/
def Tells (v : Val) (c : Counts) (op : Comp) (n : Int) : Prop :=
  accepted v = true ∧ ∀ m other, ∃ b, observe m other v = some b ∧ (b = true ↔ Stands op (m c) n)

end Rocketry.Spec
