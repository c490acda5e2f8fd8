import Verif.Task.RunningNow

/-!
# Which runs go on (C109)
-/

namespace Rocketry.Spec
open Rocketry

/-- The runs that began and did not end, told from what happened; the latest first. -/
def goingOn : List Nat → List RunEv → List Nat
  | l, [] => l
  | l, .began i _ _ :: es => goingOn (i :: l) es
  | l, .ended i _ _ _ :: es => goingOn (l.filter (fun j => decide (j ≠ i))) es
  | l, .killed i :: es => goingOn (l.filter (fun j => decide (j ≠ i))) es

/-- Runs end after they began, and with an outcome; each begins once; none is killed. -/
def Lawful : List Nat → List RunEv → Prop
  | _, [] => True
  | l, .began i _ _ :: es => i ∉ l ∧ Lawful (i :: l) es
  | l, .ended i a _ _ :: es => i ∈ l ∧ a ≠ .run ∧ Lawful (l.filter (fun j => decide (j ≠ i))) es
  | _, .killed _ :: _ => False

/-- No run begins while another goes on. -/
def OneByOne : List Nat → List RunEv → Prop
  | _, [] => True
  | l, .began i _ _ :: es => l = [] ∧ OneByOne (i :: l) es
  | l, .ended i _ _ _ :: es => OneByOne (l.filter (fun j => decide (j ≠ i))) es
  | l, .killed i :: es => OneByOne (l.filter (fun j => decide (j ≠ i))) es

end Rocketry.Spec
