import Verif.Spec.SchedSpec

/-!
# Requests to restart and to shut down
-/

namespace Rocketry.Spec
open Sched

/-- Before the first round, within a round, and in the shutdown that ends it. -/
inductive Stage where | off | running | closing
  deriving DecidableEq, Repr

/-- The round: where it is, whether a restart or a shutdown was asked for since it began, and whether it ends with a
restart that was asked for. -/
structure Round where
  stage : Stage
  wanted : Bool
  asked : Bool
  due : Bool
  deriving DecidableEq, Repr

/-- What may happen next.  A round begins first of all, or after the shutdown of a round in which, before its shutdown, a
restart was asked for but no shutdown (`free`: or after any shutdown); there is only one round unless `recall`.  No cycle
begins outside of a round or after a request. -/
def Round.step (recall free : Bool) (p : Round) : Obs → Option Round
  | .serve =>
    if p.stage = .off ∨ (p.stage = .closing ∧ recall = true ∧ (p.due = true ∨ free = true)) then some ⟨.running, false, false, false⟩
    else none
  | .cycle => if p.stage = .running ∧ p.wanted = false ∧ p.asked = false then some p else none
  | .shutdown => if p.stage = .running then some { p with stage := .closing, due := p.wanted && !p.asked } else none
  | .env .restart => some { p with wanted := true }
  | .env (.shutDown _) => some { p with asked := true }
  | _ => some p

/-- The round after all that was observed, if everything came in order. -/
def rounds (recall free : Bool) (l : List Obs) : Option Round := l.foldlM (Round.step recall free) ⟨.off, false, false, false⟩

/-- How many rounds have begun. -/
def begun (l : List Obs) : Nat := l.countP (fun o => decide (o = .serve))

/-- How many requests to restart were made. -/
def restartRequests (l : List Obs) : Nat := l.countP (fun o => decide (o = .env .restart))

/-- No task raises `SchedulerRestart` itself. -/
def NoneRaised (env : Nat → Choice) : Prop := ∀ i, (env i).fault ≠ some (.exc .restart)

end Rocketry.Spec
