import Verif.Spec.AppLogSpec
import Verif.Session.SetRepo

/-!
# A new repository for the log, in plain words
-/

namespace Rocketry.Spec
open Rocketry.Session

/-- The logger of this name exists (and is not a mere placeholder). -/
def IsLogger (w : LogWorld) (n : LogName) : Prop := ∃ l, w.get n = some l ∧ l.placeholder = false

/-- What is logged under the name `m` comes to the logger `n`: it is the same name or a name above, and no logger on the
way, which is `m` itself or has a name longer than `n`, keeps the records to itself. -/
def ComesTo (w : LogWorld) (m n : LogName) : Prop :=
  m = n ∨ (n ∈ above m ∧ ∀ x ∈ m :: above m, n.length < x.length → ∀ l, w.get x = some l → l.placeholder = false →
    l.propagate = true)

/-- The records that come to the logger, in order. -/
def cameTo (w : LogWorld) (n : LogName) [DecidablePred (fun m => ComesTo w m n)] (l : List RepoOp) : List LRec :=
  l.filterMap (fun o => match o with
    | .log m r => if ComesTo w m n then some r else none
    | .setRepo .. => none)

/-- The logger `n` is left alone, and the repository `k` is given to no logger. -/
def LeavesBoth (n : LogName) (k : Nat) : RepoOp → Prop
  | .log .. => True
  | .setRepo m j => m ≠ n ∧ j ≠ k

/-- The repository is given to no logger. -/
def NotGiven (k : Nat) : RepoOp → Prop
  | .log .. => True
  | .setRepo _ j => j ≠ k

end Rocketry.Spec
