import Verif.Session.TaskCond
import Verif.Spec.TimeSpec

/-!
# Conditions defined by a task, in plain words
-/

namespace Rocketry.Spec
open Rocketry.Session

/-- The last successful run of the task returned `v`, at the time `t`; since then its time was not read from the log. -/
def LastReturn (l : List CondEv) (id : Nat) (v : Bool) (t : Int) : Prop :=
  ∃ pre post, l = pre ++ .success id v t :: post ∧ ∀ e ∈ post, (∀ v' t', e ≠ .success id v' t') ∧ ∀ t', e ≠ .restored id t'

/-- No run of the task has succeeded since the program was started. -/
def NeverReturned (l : List CondEv) (id : Nat) : Prop := ∀ e ∈ l, ∀ v t, e ≠ .success id v t

/-- How long a check is valid: always, for a duration, or as long as it was made in a part of a cycle. -/
inductive ActiveTime where
  | always
  | past (us : Int)
  | part (sc : Scope) (s e : Int)

/-- The period. -/
def ActiveTime.period : ActiveTime → Period
  | always => .always
  | past us => .delta us 0
  | part sc s e => .anchored ⟨sc, s, e⟩

/-- It is sound: durations are not negative, the bounds lie in a cycle of fixed length. -/
def ActiveTime.Sound : ActiveTime → Prop
  | always => True
  | past us => 0 ≤ us
  | part sc s e => ∃ L, cycleLen sc = some L ∧ 0 ≤ s ∧ s ≤ L ∧ 0 ≤ e ∧ e ≤ L

/-- A check made at `t` is valid at `now`. -/
def ActiveTime.Valid : ActiveTime → Int → Int → Prop
  | always, _, _ => True
  | past us, now, t => now - us ≤ t ∧ t ≤ now
  | part sc s e, _, t => InArc ((cycleLen sc).getD 1) s e t

/-- The task belongs to a condition. -/
def OfCond (s : CondSess) (id : Nat) : Prop := ∃ x ∈ s.cache, x.2.id = id

/-- The names of the tasks of conditions are left alone, only existing tasks run, and tasks of names that are taken are
not dropped silently. -/
def Undisturbed (s : CondSess) : CondEv → Prop
  | .op (.rename id _) => ¬ OfCond s id
  | .op (.removeObj id) => ¬ OfCond s id
  | .op (.removeName n) => ∀ o ∈ s.sess.tasks, o.name = n → ¬ OfCond s o.id
  | .op .clear => False
  | .op (.setPolicy p) => p ≠ .ignore
  | .success id _ _ => id < s.sess.next
  | _ => True

/-- … in the whole history. -/
def Calm (s : CondSess) (l : List CondEv) : Prop := ∀ pre e post, l = pre ++ e :: post → Undisturbed (s.run pre) e

end Rocketry.Spec
