import Verif.Session.FuncCond

/-!
# Conditions made from functions, in plain words
-/

namespace Rocketry.Spec

open Rocketry.Args Rocketry.FuncConds

variable {V : Type}

/-- The parameter is the `i`-th of those that can be given by position. -/
def AtPosition (s : Sig V) (p : Par V) (i : Nat) : Prop := (s.pars.filter (fun q => !q.kwOnly))[i]? = some p

/-- `v` is given for the parameter: by position or by keyword. -/
def GivenValue (s : Sig V) (args : List V) (kw : Dict V) (p : Par V) (v : V) : Prop :=
  (∃ i, AtPosition s p i ∧ args[i]? = some v) ∨ (p.name, v) ∈ kw

/-- What the parameter should get: what is given for it; or else, when its default is an argument (`Task()`, `Arg("x")`,
…), the value of this; or else its default. -/
inductive MeantValue (n : Nat) (c : Ctx V) (s : Sig V) (args : List V) (kw : Dict V) (p : Par V) : V → Prop
  | given {v} : GivenValue s args kw p v → MeantValue n c s args kw p v
  | argument {a v} : (∀ w, ¬ GivenValue s args kw p w) → p.default = some (.arg a) → getValue n c a = .ok v →
      MeantValue n c s args kw p v
  | default {v} : (∀ w, ¬ GivenValue s args kw p w) → p.default = some (.plain v) → MeantValue n c s args kw p v

/-- A signature as Python allows it: the names are distinct; and no parameter is named `self`. -/
structure WellFormed (s : Sig V) : Prop where
  distinct : (s.pars.map (·.name)).Nodup
  noSelf : "self" ∉ s.pars.map (·.name)

/-- The arguments can be given to a function with this signature: not too many by position, the keywords are distinct, known
(unless there is a `**kwargs`) and not those of parameters given by position. -/
structure CanTake (s : Sig V) (args : List V) (kw : Dict V) : Prop where
  enough : args.length ≤ (s.pars.filter (fun q => !q.kwOnly)).length ∨ s.varArgs = true
  distinct : kw.keys.Nodup
  known : s.varKw = true ∨ ∀ k ∈ kw.keys, ∃ p ∈ s.pars, p.name = k
  noSelf : "self" ∉ kw.keys
  once : ∀ p i, AtPosition s p i → i < args.length → p.name ∉ kw.keys
  /-- nothing that has to be given is missing -/
  all : ∀ p ∈ s.pars, p.default = none → ∃ v, GivenValue s args kw p v

end Rocketry.Spec
