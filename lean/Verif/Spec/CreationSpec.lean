import Verif.Session.Creation
import Verif.Spec.HooksSpec

/-!
# What the creation of a task should look like

Everything is read off the steps that the program has made before.
-/

namespace Rocketry.Spec
open Rocketry.Hooks Rocketry.Session Rocketry.Creation

/-- The hooks registered in the session, in the order of registration. -/
def hookedIn (s : Nat) (past : List Act) : List Hook := past.filterMap fun
  | .hook t h => if t = s then some h else none
  | _ => none

/-- The session made the default last; session 0 if none was. -/
def defaultOf (past : List Act) : Nat := ((past.filterMap fun
  | .makeDefault s => some s
  | _ => none).getLast?).getD 0

/-- Whether instance naming is switched on in the session. -/
def namingIn (s : Nat) (past : List Act) : Bool := ((past.filterMap fun
  | .naming t b => if t = s then some b else none
  | _ => none).getLast?).getD false

/-- The name that a task of the session should ask for. -/
def wantedName (s : Nat) (past : List Act) (name : Option String) (auto ident : String) : String :=
  name.getD (if namingIn s past = true then ident else auto)

/-- A name that the session can take: it is new. -/
def NewIn (x : Sess) (n : String) : Prop := ∀ o ∈ x.tasks, o.name ≠ n

/-- The creation of a task in session `s` as it should be, after the steps `past`: the hooks of session `s` are run
around it. -/
def ProperCreation (s : Nat) (past : List Act) (name : String) (r : Report) : Prop :=
  r = ⟨s, properTrace (hookedIn s past) (), some name, false⟩

end Rocketry.Spec
