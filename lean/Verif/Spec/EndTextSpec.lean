import Verif.Spec.SchedSpec
import Verif.Sched.Follow

/-!
# When the runs of a task with an end condition are to be ended
-/

namespace Rocketry.Spec
open Sched

/-- The run has gone on for longer than the timeout of the task (or of the session) at the time `time`. -/
def TooOld (cfg : Config) (time : Int) (t : TaskSt) (r : Run) : Prop :=
  t.permanent = false ∧ ∃ x, TimeoutIs cfg t x ∧ time - r.start > x

/-- The run goes on and was started `limit` ago or earlier. -/
def Aged (now limit : Int) (r : Run) : Prop := r.alive = true ∧ limit ≤ now - r.start

/-- What is done in a check of the task (`l`: what happens in it) for an end condition that says `P`: a live run is
terminated (or ends by itself during the check) if its termination was requested, `P` holds or the run is too old; no
other live run is terminated, no run twice, and a run that is not ended is alive afterwards. -/
structure EndsBy (P : Prop) (cfg : Config) (time : Int) (name : String) (t : TaskSt) (l : List Obs)
    (res : Res Unit) (w' : World) : Prop where
  done : res = .ok () → ∀ r ∈ t.stack, r.alive = true → t.forceTerm = true ∨ P ∨ TooOld cfg time t r → EndedIn name r.id l
  only : ∀ n i, Obs.terminated n i ∈ l → n = name ∧ ∃ r ∈ t.stack, r.id = i ∧
    (t.forceTerm = true ∨ P ∨ (r.alive = true ∧ TooOld cfg time t r))
  once : ∀ i, (l.filter (fun o => decide (o = Obs.terminated name i))).length ≤ 1
  left : ∀ r ∈ t.stack, r.alive = true → ¬ EndedIn name r.id l →
    ∃ t', w'.st.find name = some t' ∧ ∃ r' ∈ t'.stack, r'.id = r.id ∧ r'.alive = true

end Rocketry.Spec
