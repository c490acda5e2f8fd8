import Verif.Task.ImportPath

/-!
# The import path, in plain words
-/

namespace Rocketry.Spec
open Rocketry.Task

/-- What the code outside of the loads does to the list, alone. -/
def ownChanges : List ImportEv → List PathEntry → List PathEntry
  | [], l => l
  | .append q :: es, l => ownChanges es (l ++ [q])
  | .prepend q :: es, l => ownChanges es (q :: l)
  | .remove q :: es, l => ownChanges es (l.erase q)
  | .rebind l' :: es, _ => ownChanges es l'
  | _ :: es, l => ownChanges es l

/-- The entries a load uses and those the other code uses are different; nobody assigns a new list. -/
def Apart (mine : PathEntry → Prop) : ImportEv → Prop
  | .start root ps => mine (.str root) ∧ ∀ d ∈ ps, mine (.path d)
  | .go _ => True
  | .append q | .prepend q | .remove q => ¬ mine q
  | .rebind _ => False

/-- Only loads happen. -/
def OnlyLoads : ImportEv → Prop
  | .start _ _ | .go _ => True
  | _ => False

/-- All loads are over. -/
def LoadsOver (s : ImportSt) : Prop := ∀ L ∈ s.loads, L.phase = .leaving []

end Rocketry.Spec
