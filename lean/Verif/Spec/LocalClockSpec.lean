import Verif.Time.LocalClock

/-!
# Conditions and changes of the clock

The reference speaks about instants only.
-/

namespace Rocketry.Spec
open Rocketry.Local

/-- A clock that is `before` ahead of UTC until the instant `at`, and `after` ahead from then on. -/
def changedAt (at_ before after : Int) : Clock := fun ts => if ts < at_ then ts + before else ts + after

/-- The clock has shown the same offset `o` between the instants `x` and `y`. -/
def UnchangedBetween (c : Clock) (o x y : Int) : Prop := ∀ ts, x ≤ ts → ts ≤ y → c ts = ts + o

/-- The clock shows `w` at the instant `b` and at no other. -/
def ShownOnce (c : Clock) (w b : Int) : Prop := c b = w ∧ ∀ ts, c ts = w → ts = b

/-- The number of records of the action of the task from the instant `b` to the instant `e`. -/
def recordedFrom (repo : List Record) (name : String) (a : Action) (b e : Int) : Nat :=
  (repo.filter fun r => decide (r.task = name ∧ r.action = a ∧ b ≤ r.created ∧ r.created ≤ e)).length

/-- The cached time of the action is the time of the latest record. -/
def CachedLatest (name : String) (a : Action) (t : TaskMem) (repo : List Record) : Prop := match t.last a with
  | none => ∀ r ∈ repo, r.task = name → r.action ≠ a
  | some x => (∃ r ∈ repo, r.task = name ∧ r.action = a ∧ r.created = x) ∧
      ∀ r ∈ repo, r.task = name → r.action = a → r.created ≤ x

/-- Nothing is recorded after `now`. -/
def NotLater (repo : List Record) (now : Int) : Prop := ∀ r ∈ repo, r.created ≤ now

end Rocketry.Spec
