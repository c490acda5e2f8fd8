import Verif.Session.Loggers

/-!
# The log of a session, in plain words
-/

namespace Rocketry.Spec
open Rocketry.Session

/-- How often a record logged under this name reaches the repository read for a logger. -/
def reaches (w : LogWorld) (n : LogName) (l : Lg) : Nat :=
  match l.repo with
  | none => 0
  | some k => (w.sinks n).count k

/-- A logger belongs to a session: its name begins with the base name, it is not a mere placeholder and not the logger of
child processes. -/
def Mine (base : LogName) (l : Lg) : Prop :=
  base <+: l.name ∧ l.placeholder = false ∧ ¬ "_process".toList <:+ l.name

instance (base : LogName) (l : Lg) : Decidable (Mine base l) := inferInstanceAs (Decidable (_ ∧ _ ∧ _))

/-- The loggers of a session, in the order in which they were made. -/
def mine (w : LogWorld) (base : LogName) : List Lg := w.loggers.filter (fun l => decide (Mine base l))

/-- A record logged under this name reaches the repositories of the session exactly once, all in all. -/
def ReadOnce (w : LogWorld) (base n : LogName) : Prop := ((mine w base).map (reaches w n)).sum = 1

/-- All loggers of the session can be read. -/
def AllReadable (w : LogWorld) (base : LogName) : Prop := ∀ l ∈ w.loggers, Mine base l → ∃ k, l.repo = some k

/-- Only the logger with the base name belongs to the session, it writes to one repository, and nothing above it writes
there. -/
structure PlainSetup (w : LogWorld) (base : LogName) (k : Nat) : Prop where
  only : ∃ l, mine w base = [l] ∧ w.get base = some l ∧ l.placeholder = false ∧ l.handlers = [some k]
  above : k ∉ w.upward (above base)

/-- The session has a clock of its own. -/
def HasClock (s : ClockSt) (i : Nat) : Prop := ∃ x, s.sessions[i]? = some x ∧ x.own = true

/-- The two sessions use the same base name. -/
def SameBase (s : ClockSt) (i j : Nat) : Prop := ∃ x y, s.sessions[i]? = some x ∧ s.sessions[j]? = some y ∧ x.base = y.base

end Rocketry.Spec
