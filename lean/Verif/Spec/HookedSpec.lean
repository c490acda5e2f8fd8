import Verif.Sched.Hooked

/-!
# Hooks around the startup, the cycles and the shutdown
-/

namespace Rocketry.Spec
open Sched

/-- How far a startup, cycle or shutdown has got: the first parts that are still to come, its own doings, the second parts
that are still to come, or a hook has raised an exception. -/
inductive Stand where
  | opening (rest : List HookFn)
  | inside
  | closing (rest : List HookFn)
  | failed
  deriving DecidableEq, Repr

/-- What is going on (`none`: nothing has begun). -/
structure Wrap where
  part : Option HookPoint
  stand : Stand
  deriving DecidableEq, Repr

/-- The second parts that are still to come, once all first parts were run. -/
def Stand.left (l : List HookFn) : Stand → Option (List HookFn)
  | .opening [] => some (l.filter HookFn.gen)
  | .inside => some (l.filter HookFn.gen)
  | .closing rest => some rest
  | _ => none

/-- It is complete: all parts of all hooks were run, and nothing was raised by them. -/
def Wrap.complete (hk : HookSet) (w : Wrap) : Bool := match w.part with
  | none => false
  | some p => decide (w.stand.left (hk.at p) = some [])

/-- What may be seen next. -/
def Wrap.step (hk : HookSet) (w : Wrap) : Seen → Option Wrap
  -- a first part: the next one in order
  | .first p f ok => match w.stand with
    | .opening (g :: rest) => if w.part = some p ∧ f = g then some ⟨some p, if ok then .opening rest else .failed⟩ else none
    | _ => none
  -- a second part: the next one in order, after all first parts
  | .second p f ok => match w.stand.left (hk.at p) with
    | some (g :: rest) => if w.part = some p ∧ f = g then some ⟨some p, if ok then .closing rest else .failed⟩ else none
    | _ => none
  -- what happens outside of the scheduler
  | .obs (.env _) => some w
  -- beginnings and ends
  | .obs .serve =>
    if w.part = none ∨ (w.part = some .shutdown ∧ w.complete hk = true) then some ⟨some .startup, .opening hk.startup⟩ else none
  | .obs .cycle =>
    if (w.part = some .startup ∨ w.part = some .cycle) ∧ w.complete hk = true then some ⟨some .cycle, .opening hk.cycle⟩ else none
  | .obs .cycleDone => if w.part = some .cycle ∧ w.complete hk = true then some w else none
  | .obs .shutdown => if w.part = some .startup ∨ w.part = some .cycle then some ⟨some .shutdown, .opening hk.shutdown⟩ else none
  | .obs .restarted => if w.part = some .shutdown ∧ w.complete hk = true then some w else none
  -- the doings of the startup, cycle or shutdown: after all first parts and before the second ones
  | .obs _ => if w.part ≠ none ∧ (w.stand = .opening [] ∨ w.stand = .inside) then some { w with stand := .inside } else none

/-- What is going on after all that was seen, if everything came in order. -/
def wraps (hk : HookSet) (l : List Seen) : Option Wrap := l.foldlM (Wrap.step hk) ⟨none, .inside⟩

/-- No hook raised an exception. -/
def HooksFine (l : List Seen) : Prop := ∀ x ∈ l, ∀ p f, x ≠ .first p f false ∧ x ≠ .second p f false

end Rocketry.Spec
