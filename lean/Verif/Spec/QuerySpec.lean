import Verif.Task.Query

/-!
# Log queries, in plain words
-/

namespace Rocketry.Spec
open Rocketry.Query

/-- `a ≤ b`, for values of the same kind. -/
inductive AtMost : Val → Val → Prop
  | num {a b : Int} : a ≤ b → AtMost (.num a) (.num b)
  | text {a b : String} : a ≤ b → AtMost (.text a) (.text b)

/-- Two values of the same kind. -/
inductive SameKind : Val → Val → Prop
  | num (a b : Int) : SameKind (.num a) (.num b)
  | text (a b : String) : SameKind (.text a) (.text b)

/-- The value of a field satisfies a filter: it is the value asked for, it is in the range, it is one of the list. -/
def FieldOk : Filter → Val → Prop
  | .is w, v => v = w
  | .range lo hi, v => (∀ a, lo = some a → AtMost a v) ∧ (∀ b, hi = some b → AtMost v b)
  | .oneOf l, v => v ∈ l

/-- The record has the field, with a value that satisfies the filter. -/
def FilterSat (i : Item) (k : String) (f : Filter) : Prop := ∃ v, Dict.find i k = some v ∧ FieldOk f v

/-- The record has the field, and its value can be compared with the bounds. -/
def FilterFits (i : Item) (k : String) (f : Filter) : Prop := ∃ v, Dict.find i k = some v ∧
  match f with
  | .range lo hi => (∀ a, lo = some a → SameKind v a) ∧ (∀ b, hi = some b → SameKind v b)
  | _ => True

/-- What a key of a query asks of a field. -/
inductive Ask where | same | min | max | differs | regex
  deriving DecidableEq

/-- `field`, `field$min`, `field$max`, `field$not`, `field$regex`. -/
inductive Reads : String → String → Ask → Prop
  | same {f : String} : '$' ∉ f.toList → Reads f f .same
  | min {f : String} : '$' ∉ f.toList → Reads (f ++ "$min") f .min
  | max {f : String} : '$' ∉ f.toList → Reads (f ++ "$max") f .max
  | differs {f : String} : '$' ∉ f.toList → Reads (f ++ "$not") f .differs
  | regex {f : String} : '$' ∉ f.toList → Reads (f ++ "$regex") f .regex

/-- The value `w` of the field is as asked by `v`. -/
def Meets (re : String → String → Bool) (v w : Val) : Ask → Prop
  | .same => w = v
  | .min => AtMost v w
  | .max => AtMost w v
  | .differs => w ≠ v
  | .regex => ∃ p s, v = .text p ∧ w = .text s ∧ re p s = true

/-- The question makes sense for the values. -/
def Askable (v w : Val) : Ask → Prop
  | .min | .max => SameKind w v
  | .regex => ∃ p s, v = .text p ∧ w = .text s
  | _ => True

/-- The record satisfies the pair. -/
def PairSat (re : String → String → Bool) (i : Item) (k : String) (v : Val) : Prop :=
  ∃ f a w, Reads k f a ∧ Dict.find i f = some w ∧ Meets re v w a

/-- The key is well formed, the record has the field, and the question makes sense. -/
def PairFits (i : Item) (k : String) (v : Val) : Prop :=
  ∃ f a w, Reads k f a ∧ Dict.find i f = some w ∧ Askable v w a

end Rocketry.Spec
