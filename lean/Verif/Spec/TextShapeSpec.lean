import Verif.Spec.ParserSpec

/-!
# Which texts are expressions

A text as pieces laid side by side: words, operators and brackets with pieces inside, in any order.  Whether such a text
is an expression is a question about it alone: it is one when it is the text of a properly written expression.
-/

namespace Rocketry.Spec

open Written (Blank Word)

/-- A piece of a text: a word or an operator with the blanks around it, or a bracket. -/
inductive Piece where
  | word (pre w post : List Char)
  | sign (pre : List Char) (c : Char) (post : List Char)
  | group (l : List Piece)

mutual
/-- The text. -/
def piecesText : List Piece → List Char
  | [] => []
  | p :: l => p.text ++ piecesText l

/-- The text of one piece. -/
def Piece.text : Piece → List Char
  | .word pre w post => pre ++ w ++ post
  | .sign pre c post => pre ++ c :: post
  | .group l => '(' :: (piecesText l ++ [')'])
end

/-- Words and brackets stand for something, operators combine what stands beside them. -/
def Piece.operand : Piece → Bool
  | .word .. => true
  | .sign .. => false
  | .group _ => true

/-- No two operands side by side. -/
def OperandsApart : List Piece → Prop
  | [] => True
  | [_] => True
  | a :: b :: l => ¬ (a.operand = true ∧ b.operand = true) ∧ OperandsApart (b :: l)

mutual
/-- The pieces themselves are in order; nothing is said about their sequence except that operands are apart within the
brackets. -/
def Laid : List Piece → Prop
  | [] => True
  | p :: l => p.Laid ∧ Laid l

/-- One piece. -/
def Piece.Laid : Piece → Prop
  | .word pre w post => Blank pre ∧ Word w ∧ Blank post
  | .sign pre c post => Blank pre ∧ Blank post ∧ (c = '&' ∨ c = '|')
  | .group l => Rocketry.Spec.Laid l ∧ OperandsApart l
end

/-- Operands and operators take turns. -/
def Turns : List Piece → Prop
  | [] => True
  | [_] => True
  | a :: b :: l => a.operand ≠ b.operand ∧ Turns (b :: l)

/-- The text is an expression without negations. -/
def IsExpression (s : List Char) : Prop := ∃ e : Written, e.Proper ∧ e.NoNot ∧ e.text = s

end Rocketry.Spec
