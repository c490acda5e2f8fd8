import Verif.Spec.TimeSpec

/-!
# Specification for C96: what a clock and a week calendar show
-/

namespace Rocketry.Spec
open Rocketry

/-- The part of an instant that a clock shows: the whole units since the beginning of the next larger unit (days of the week
count from Monday, 0). -/
def shownPart (key : String) (t : Int) : Int :=
  if key = "microsecond" then t % 1000000
  else if key = "second" then t / 1000000 % 60
  else if key = "minute" then t / (60 * 1000000) % 60
  else if key = "hour" then t / (60 * 60 * 1000000) % 24
  else t / (24 * 60 * 60 * 1000000) % 7

/-- The parts that make up a point of a cycle. -/
def cycleParts : Scope → List String
  | .second => ["microsecond"]
  | .minute => ["microsecond", "second"]
  | .hour => ["microsecond", "second", "minute"]
  | .day => ["microsecond", "second", "minute", "hour"]
  | .week => ["microsecond", "second", "minute", "hour", "day"]
  | _ => []

/-- A dictionary gives a part: by an entry, or by none if the part is zero. -/
def GivesPart (d : List (String × Int)) (key : String) (n : Int) : Prop := (key, n) ∈ d ∨ (n = 0 ∧ ∀ m, (key, m) ∉ d)

end Rocketry.Spec
