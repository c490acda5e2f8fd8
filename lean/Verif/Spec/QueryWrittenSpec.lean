import Verif.Task.QueryWritten

/-!
# What a written query says of a record
-/

namespace Rocketry.Spec

open Rocketry.Query

/-- The value of one side of a comparison in a record. -/
def SideIs (i : Item) : Operand → Val → Prop
  | .val v, a => a = v
  | .key k, a => Dict.find i k = some a

/-- `a` comes before `b`: numbers and texts, each in their order. -/
def ValBefore : Val → Val → Prop
  | .num a, .num b => a < b
  | .text a, .text b => a < b
  | _, _ => False

/-- What the comparisons say. -/
def ValCompares : Op → Val → Val → Prop
  | .eq, a, b => a = b
  | .ne, a, b => a ≠ b
  | .lt, a, b => ValBefore a b
  | .gt, a, b => ValBefore b a
  | .le, a, b => ValBefore a b ∨ a = b
  | .ge, a, b => ValBefore b a ∨ a = b

/-- Both are numbers or both are texts. -/
def OneKind : Val → Val → Prop
  | .num _, .num _ | .text _, .text _ => True
  | _, _ => False

/-- Values that can be compared: any for equality, those of one kind for the order. -/
def CanCompare : Op → Val → Val → Prop
  | .eq, _, _ | .ne, _, _ => True
  | _, a, b => OneKind a b

/-- What a written query says of a record. -/
def QuerySays (re : String → String → Bool) (i : Item) : QWritten → Prop
  | .field k op r => ∃ a b, SideIs i (.key k) a ∧ SideIs i r b ∧ ValCompares op a b
  | .value v op k => ∃ a, SideIs i (.key k) a ∧ ValCompares op v a
  | .chain v op k op' v' => ∃ a, SideIs i (.key k) a ∧ ValCompares op v a ∧ ValCompares op' a v'
  | .regex k p => ∃ s t, Dict.find i k = some (.text s) ∧ p = .text t ∧ re t s = true
  | .and a b => QuerySays re i a ∧ QuerySays re i b
  | .or a b => QuerySays re i a ∨ QuerySays re i b
  | .not a => ¬ QuerySays re i a

/-- The record has the fields that the query names, with values that can be compared as it does. -/
def FitsQuery (i : Item) : QWritten → Prop
  | .field k op r => ∃ a b, SideIs i (.key k) a ∧ SideIs i r b ∧ CanCompare op a b
  | .value v op k => ∃ a, SideIs i (.key k) a ∧ CanCompare op v a
  | .chain v op k op' v' => ∃ a, SideIs i (.key k) a ∧ CanCompare op v a ∧ CanCompare op' a v'
  | .regex k p => ∃ s t, Dict.find i k = some (.text s) ∧ p = .text t
  | .and a b => FitsQuery i a ∧ FitsQuery i b
  | .or a b => FitsQuery i a ∧ FitsQuery i b
  | .not a => FitsQuery i a

/-- No comparison of three is in the query. -/
def NoChain : QWritten → Prop
  | .chain .. => False
  | .and a b | .or a b => NoChain a ∧ NoChain b
  | .not a => NoChain a
  | _ => True

end Rocketry.Spec
