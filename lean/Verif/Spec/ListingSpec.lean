import Verif.Session.Listing

/-!
# The dependency listing, in plain words
-/

namespace Rocketry.Spec
open Rocketry.Listing Rocketry

/-- The leaf `x` sits somewhere in the condition, `b`: under an `|`. -/
inductive Sits {L : Type} (x : L) : Prop → Cond L → Prop
  | leaf : Sits x False (.leaf x)
  | any {b : Prop} {c : Cond L} {l : List (Cond L)} : c ∈ l → Sits x b c → Sits x True (.any l)
  | all {b : Prop} {c : Cond L} {l : List (Cond L)} : c ∈ l → Sits x b c → Sits x b (.all l)
  | not {b : Prop} {c : Cond L} : Sits x b c → Sits x b (.not c)

/-- The condition has no dependency in it. -/
def Independent (c : Cond DLeaf) : Prop := ∀ r t b, ¬ Sits (DLeaf.depend r t) b c

/-- A leaf, or no dependency inside. -/
def Simple (c : Cond DLeaf) : Prop := (∃ x, c = .leaf x) ∨ Independent c

/-- The dependencies stand alone or are joined by one `|` or one `&`. -/
inductive Shallow : Cond DLeaf → Prop
  | simple {c : Cond DLeaf} : Simple c → Shallow c
  | any {l : List (Cond DLeaf)} : (∀ c ∈ l, Simple c) → Shallow (.any l)
  | all {l : List (Cond DLeaf)} : (∀ c ∈ l, Simple c) → Shallow (.all l)

/-- The start condition of `child` has a dependency on `parent`; `b`: under an `|`. -/
def DependsOn (ts : Tasks) (child parent : String) (r : Relation) (b : Prop) : Prop :=
  ∃ c, (child, c) ∈ ts ∧ Sits (.depend r parent) b c

end Rocketry.Spec
