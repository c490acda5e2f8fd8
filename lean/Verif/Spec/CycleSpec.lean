import Verif.Sched.State
import Verif.Cond.Cond
import Verif.Spec.PhraseSpec

/-!
# Specification of counting cycles

An execution is read from its trace: a session begins with the mark `serve`, a cycle with `cycle`, and a cycle that
came to its end has the mark `cycleDone`.
-/

namespace Rocketry.Spec

open Rocketry.Sched (Obs)

/-- A cycle of a session begins only if the condition was false for every number of cycles the session had so far. -/
def StopsInTime (P : Nat → Prop) (o : List Obs) : Prop :=
  ∀ pre mid post, o = pre ++ .serve :: mid ++ .cycle :: post → .serve ∉ mid → ∀ j ≤ mid.count .cycle, ¬ P j

/-- The first number that satisfies the condition. -/
def FirstWith (P : Nat → Prop) (k : Nat) : Prop := P k ∧ ∀ j < k, ¬ P j

/-- What happened since the beginning of the latest session. -/
def sinceServe (o : List Obs) : List Obs := (o.reverse.takeWhile (fun x => decide (x ≠ .serve))).reverse

/-- A number meets a comparison. -/
def Compares : Comp × Int → Nat → Prop
  | (.eq, v), k => (k : Int) = v
  | (.ne, v), k => (k : Int) ≠ v
  | (.lt, v), k => (k : Int) < v
  | (.gt, v), k => v < (k : Int)
  | (.le, v), k => (k : Int) ≤ v
  | (.ge, v), k => v ≤ (k : Int)

/-- A number of cycles meets all the comparisons; without any it must be at least one. -/
def Reached (comps : Comps) (k : Nat) : Prop := (comps = [] → 0 < k) ∧ ∀ c ∈ comps, Compares c k

/-- The scheduler has been running for at least `more` and at most `less`. -/
def RunningFor (more less : Option Int) (startup now : Int) : Prop :=
  (∀ m, more = some m → m ≤ now - startup) ∧ (∀ l, less = some l → now - startup ≤ l) ∧ startup ≤ now

/-- The absolute value of a duration. -/
def absDur (d : Int) : Int := if d < 0 then -d else d

/-- What a phrase about the scheduler says, `d` being its duration, if any. -/
def SchedSays (d startup now : Int) (k : Nat) : Phrase → Prop
  | .schedOver _ => d < now - startup
  | .schedAgo _ => 0 ≤ now - startup ∧ now - startup ≤ d
  | .schedMore n => n < k
  | .schedLess n => k < n
  | .schedCycles n => k = n
  | _ => False

/-- The phrases about the scheduler with the text of their duration. -/
def schedPhrase : Phrase → Option (Option Txt)
  | .schedOver d => some (some d)
  | .schedAgo d => some (some d)
  | .schedMore _ => some none
  | .schedLess _ => some none
  | .schedCycles _ => some none
  | _ => none

end Rocketry.Spec
