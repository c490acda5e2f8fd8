import Verif.Text.CondText
import Verif.Spec.ParserSpec
import Verif.Spec.PhraseSpec

/-!
# The text of a condition, in plain words
-/

namespace Rocketry.Spec

variable {L : Type}

/-- Where a text stands: on its own or in a disjunction, in a conjunction, under a negation. -/
inductive Place where | loose | conj | tight

/-- The operators of the expression bind tightly enough for the place. -/
def Place.Allows : Place → Written → Prop
  | .loose, _ => True
  | .conj, e => e.Conj
  | .tight, e => e.Tight

/-- The object made by hand from a written expression: `~`, `&` and `|` applied to the objects of its words. -/
def byHand (item : Txt → Except PyErr (Cond L)) : Written → Except PyErr (Cond L)
  | .item _ w _ => item w
  | .group e => byHand item e
  | .not _ _ e => (byHand item e).map Cond.invert
  | .and a _ _ b => match byHand item a, byHand item b with
    | .ok x, .ok y => .ok (x.and y)
    | .ok _, .error e => .error e
    | .error e, _ => .error e
  | .or a _ _ b => match byHand item a, byHand item b with
    | .ok x, .ok y => .ok (x.or y)
    | .ok _, .error e => .error e
    | .error e, _ => .error e

/-- No conjunction directly in a conjunction and no disjunction directly in a disjunction, at the top: what the
constructors `All(...)` and `Any(...)` give. -/
def Levelled : Cond L → Prop
  | .all subs => ∀ s ∈ subs, ∀ xs, s ≠ .all xs
  | .any subs => ∀ s ∈ subs, ∀ xs, s ≠ .any xs
  | .not c => Levelled c
  | _ => True

/-- A text says what the object is: it is a proper written expression, tight enough for its place, its words name simple
objects, and the object made from it is this one. -/
def Says (item : Txt → Except PyErr (Cond L)) (p : Place) (t : Txt) (c : Cond L) : Prop :=
  ∃ e : Written, e.Proper ∧ e.text = t ∧ p.Allows e ∧ (∀ w ∈ e.words, ∃ x, item w = .ok x ∧ Levelled x) ∧
    byHand item e = .ok c

mutual
/-- All texts kept in a condition, or made by its leaves, say what their objects are and are tight enough for their place;
conjunctions and disjunctions have at least two parts, none of them of the same kind. -/
def Honest (item : Txt → Except PyErr (Cond L)) (leafStr : L → Except PyErr Txt) : Place → SCond L → Prop
  | p, .leaf l own => match own with
    | some s => Says item p s (.leaf l)
    | none => ∃ s, leafStr l = .ok s ∧ Says item p s (.leaf l)
  | _, .alwaysTrue => item c!"true" = .ok .alwaysTrue
  | _, .alwaysFalse => item c!"false" = .ok .alwaysFalse
  | p, .any own subs => match own with
    | some s => Says item p s (SCond.erase (.any own subs))
    | none => 2 ≤ subs.length ∧ HonestAll item leafStr .loose subs ∧ ∀ s ∈ subs, ∀ xs, s.erase ≠ .any xs
  | p, .all own subs => match own with
    | some s => Says item p s (SCond.erase (.all own subs))
    | none => 2 ≤ subs.length ∧ HonestAll item leafStr .conj subs ∧ ∀ s ∈ subs, ∀ xs, s.erase ≠ .all xs
  | p, .not own c => match own with
    | some s => Says item p s (SCond.erase (.not own c))
    | none => Honest item leafStr .tight c ∧ ∀ x, c.erase ≠ .not x
def HonestAll (item : Txt → Except PyErr (Cond L)) (leafStr : L → Except PyErr Txt) : Place → List (SCond L) → Prop
  | _, [] => True
  | p, c :: cs => Honest item leafStr p c ∧ HonestAll item leafStr p cs
end

/-- What an expression of the user gives: its leaves are texts given to `parse_condition` or condition objects made in
Python, then operators. -/
inductive Made (strLeaf : Char → L) (item : Txt → Except PyErr (Cond L)) : CExpr (Txt ⊕ L) → SCond L → Prop
  | read {t c} : SCond.read strLeaf item t = .ok c → Made strLeaf item (.leaf (.inl t)) c
  | made (l) : Made strLeaf item (.leaf (.inr l)) (.leaf l none)
  | and {a b x y} : Made strLeaf item a x → Made strLeaf item b y → Made strLeaf item (.and a b) (x.and y)
  | or {a b x y} : Made strLeaf item a x → Made strLeaf item b y → Made strLeaf item (.or a b) (x.or y)
  | not {a x} : Made strLeaf item a x → Made strLeaf item (.not a) x.invert

/-- A word names a single condition: not a compound one. -/
def Lonely (item : Txt → Except PyErr (Cond L)) (w : Txt) : Prop :=
  Written.Word w ∧ ((∃ l, item w = .ok (.leaf l)) ∨ item w = .ok .alwaysTrue ∨ item w = .ok .alwaysFalse)

/-- The leaves of an expression of the user: words naming single conditions, and conditions whose text is a word naming
them. -/
def SoundLeaf (item : Txt → Except PyErr (Cond L)) (leafStr : L → Except PyErr Txt) : Txt ⊕ L → Prop
  | .inl w => Lonely item w
  | .inr l => ∃ s, leafStr l = .ok s ∧ Written.Word s ∧ item s = .ok (.leaf l)

/-- What the observation of a leaf gives is `o`. -/
def Shows {σ : Type} (item : Txt → Except PyErr (Cond L)) (g : L → Cond.Obs σ) (o : Cond.Obs σ) : Txt ⊕ L → Prop
  | .inl w => ∃ x, item w = .ok x ∧ Cond.observe g x = o
  | .inr l => g l = o

/-- The name of a task that can be written in a text without being cut: no newline, no quote, no bracket, no operator. -/
def Neat (t : Txt) : Prop := Arg t ∧ ∀ c ∈ t, c ≠ '(' ∧ c ≠ ')' ∧ c ≠ '&' ∧ c ≠ '|' ∧ c ≠ '~'

end Rocketry.Spec
