import Verif.Session.Decorate

/-!
# What is expected of decorators that make tasks
-/

namespace Rocketry.Spec
open Rocketry.Decorate

/-- The decorators of a program, by number: the options of those that were made without a function, and nothing for other
objects. -/
abbrev Decorators := List (Option Opts)

/-- What a decorator given by its options makes of a function: a task with these options. -/
def taskOf (f : Fn) (o : Opts) : Made := ⟨some f, o⟩

/-- The tasks a program should make, in order: one for each function that is decorated and for each that is given, with
the options that are given. -/
def shouldMake : Decorators → List Act → List Made
  | _, [] => []
  | d, .construct (some f) o :: l => taskOf f o :: shouldMake (d ++ [none]) l
  | d, .construct none o :: l =>
    if "path" ∈ o.map Prod.fst then ⟨none, o⟩ :: shouldMake (d ++ [none]) l else shouldMake (d ++ [some o]) l
  | d, .call i f :: l => match d[i]? with
    | some (some o) => taskOf f o :: shouldMake d l
    | _ => shouldMake d l

/-- Decorators are applied after they are made, each at most once, and to nothing but functions; functions that are given
come with at least one option. -/
def UsedOnce : Decorators → List Act → Prop
  | _, [] => True
  | d, .construct (some _) o :: l => o ≠ [] ∧ UsedOnce (d ++ [none]) l
  | d, .construct none o :: l => UsedOnce (d ++ [if "path" ∈ o.map Prod.fst then none else some o]) l
  | d, .call i _ :: l => (∃ o, d[i]? = some (some o)) ∧ UsedOnce (d.set i none) l

end Rocketry.Spec
