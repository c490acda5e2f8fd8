import Verif.Time.Zoned

/-!
# Working in a time zone

The reference: a session with the option `timezone` behaves like a session without it on a computer whose local time is
this zone.
-/

namespace Rocketry.Spec
open Rocketry.Zoned

/-- A computer whose local time is `o` ahead of UTC. -/
def computerAt (o : Int) : Machine := ⟨fun w => w - o, fun ts => ts + o⟩

/-- Periods that name no dates and reach back only a limited time: times of clock and calendar, durations, and all
combinations. -/
inductive Floating : Period → Prop
  | anchored (a : Anchored) : Floating (.anchored a)
  | delta (past future : Int) : Floating (.delta past future)
  | span (near far : Int) : Floating (.span near (some far))
  | all (ps : List Period) : (∀ p ∈ ps, Floating p) → Floating (.all ps)
  | any (ps : List Period) : (∀ p ∈ ps, Floating p) → Floating (.any ps)

/-- The period as an object of the model with zones; its dates, if any, have no zone. -/
def undated : Period → ZPeriod
  | .anchored a => .anchored a
  | .static s e => .static (.naive s) (.naive e)
  | .always => .static (.naive MINT) (.naive MAXT)
  | .delta p f => .delta p f
  | .span n f => .span n f
  | .relday o s e => .relday o s e
  | .all ps => .all (members ps)
  | .any ps => .any (members ps)
where
  members : List Period → List ZPeriod
    | [] => []
    | p :: ps => undated p :: members ps

/-- A log whose times are what clocks `o` ahead of UTC showed. -/
def shownIn (o : Int) (repo : List Record) : List Record :=
  repo.map fun r => { r with created := r.created + o, noted := r.noted + o }

/-- Cached times, likewise. -/
def memIn (o : Int) (t : TaskMem) : TaskMem := { t with last := fun a => (t.last a).map (· + o) }

def readsIn (o : Int) (r : ExecReads) : ExecReads :=
  ⟨r.isin + o, r.inacted + o, r.succeeded + o, r.failed + o, r.terminated + o⟩

end Rocketry.Spec
