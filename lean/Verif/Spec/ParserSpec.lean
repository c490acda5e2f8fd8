import Verif.Spec.CondSpec

/-!
# What a condition or time string means

A written expression with its blanks, the text of it, and the expression it stands for.  The usual precedence is a
property of the tree: a negation applies to an item, a bracket or a negation; a conjunction has no bare disjunction
inside.
-/

namespace Rocketry.Spec

/-- A written expression: items with the blanks around them, brackets, negations, conjunctions and disjunctions with the
blanks around the operator. -/
inductive Written where
  | item (pre word post : List Char)
  | group (e : Written)
  | not (pre post : List Char) (e : Written)
  | and (a : Written) (pre post : List Char) (b : Written)
  | or (a : Written) (pre post : List Char) (b : Written)

namespace Written

/-- The text. -/
def text : Written → List Char
  | item pre word post => pre ++ word ++ post
  | group e => '(' :: e.text ++ [')']
  | not pre post e => pre ++ '~' :: post ++ e.text
  | and a pre post b => a.text ++ pre ++ '&' :: post ++ b.text
  | or a pre post b => a.text ++ pre ++ '|' :: post ++ b.text

/-- Spaces, tabs and line breaks. -/
def Blank (s : List Char) : Prop := ∀ c ∈ s, c = ' ' ∨ c = '\t' ∨ c = '\n' ∨ c = '\r'

/-- A word: begins and ends with a printable ASCII character, no bracket or operator inside. -/
def Word (w : List Char) : Prop :=
  (∃ c, w.head? = some c ∧ 32 < c.toNat ∧ c.toNat < 127) ∧ (∃ c, w.getLast? = some c ∧ 32 < c.toNat ∧ c.toNat < 127) ∧
  (∀ c ∈ w, c ≠ '(' ∧ c ≠ ')' ∧ c ≠ '&' ∧ c ≠ '|' ∧ c ≠ '~')

/-- May stand under a negation. -/
def Tight : Written → Prop
  | item .. => True
  | group _ => True
  | not .. => True
  | _ => False

/-- May stand under a conjunction. -/
def Conj : Written → Prop
  | or .. => False
  | _ => True

/-- A properly written expression. -/
def Proper : Written → Prop
  | item pre word post => Blank pre ∧ Word word ∧ Blank post
  | group e => e.Proper
  | not pre post e => Blank pre ∧ Blank post ∧ e.Tight ∧ e.Proper
  | and a pre post b => Blank pre ∧ Blank post ∧ a.Conj ∧ b.Conj ∧ a.Proper ∧ b.Proper
  | or a pre post b => Blank pre ∧ Blank post ∧ a.Proper ∧ b.Proper

/-- No negation anywhere (time strings have none). -/
def NoNot : Written → Prop
  | item .. => True
  | group e => e.NoNot
  | not .. => False
  | and a _ _ b => a.NoNot ∧ b.NoNot
  | or a _ _ b => a.NoNot ∧ b.NoNot

/-- The expression written, with its words as leaves. -/
def expr : Written → CExpr (List Char)
  | item _ word _ => .leaf word
  | group e => e.expr
  | not _ _ e => .not e.expr
  | and a _ _ b => .and a.expr b.expr
  | or a _ _ b => .or a.expr b.expr

/-- The words. -/
def words : Written → List (List Char)
  | item _ word _ => [word]
  | group e => e.words
  | not _ _ e => e.words
  | and a _ _ b => a.words ++ b.words
  | or a _ _ b => a.words ++ b.words

/-- The set of instants written, for given sets for the words (no negation). -/
def instants (f : List Char → Int → Prop) : Written → Int → Prop
  | item _ word _ => f word
  | group e => e.instants f
  | not _ _ e => fun t => ¬ e.instants f t
  | and a _ _ b => fun t => a.instants f t ∧ b.instants f t
  | or a _ _ b => fun t => a.instants f t ∨ b.instants f t

end Written

end Rocketry.Spec
