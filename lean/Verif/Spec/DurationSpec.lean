import Mathlib.Algebra.Order.Field.Rat
import Mathlib.Data.Rat.Cast.Order

/-!
# What duration texts mean

A duration text is: signs, then parts `separators number separators unit`, then optionally a clock text
`hours:minutes:seconds`.  Its meaning is the sum of the parts.  Nothing here is taken from the model.
-/

namespace Rocketry.Spec

/-- The names of units a duration text may use and their length in microseconds. -/
def durationUnits : List (String × Nat) :=
  [("millisecond", 1000), ("ms", 1000),
   ("seconds", 1000000), ("second", 1000000), ("secs", 1000000), ("sec", 1000000), ("s", 1000000),
   ("minutes", 60000000), ("minute", 60000000), ("mins", 60000000), ("min", 60000000), ("m", 60000000),
   ("hours", 3600000000), ("hour", 3600000000), ("hrs", 3600000000), ("hr", 3600000000), ("h", 3600000000),
   ("days", 86400000000), ("day", 86400000000), ("d", 86400000000)]

/-- Separators between words. -/
def IsSep (l : List Char) : Prop := ∀ c ∈ l, c = ' ' ∨ c = ',' ∨ c = ':'

/-- A decimal digit as a character. -/
def digit (d : Fin 10) : Char := Char.ofNat (48 + d.val)

/-- The number written by decimal digits. -/
def wholeVal : List (Fin 10) → Nat
  | [] => 0
  | d :: l => d.val * 10 ^ l.length + wholeVal l

/-- The fraction written by the digits behind the point. -/
def fracVal : List (Fin 10) → Rat
  | [] => 0
  | d :: l => ((d.val : Rat) + fracVal l) / 10

/-- A decimal number: digits, and the digits behind the point if there is a point. -/
structure Decimal where
  whole : List (Fin 10)
  frac : Option (List (Fin 10))

def Decimal.text (n : Decimal) : List Char :=
  n.whole.map digit ++ (match n.frac with | none => [] | some f => '.' :: f.map digit)

def Decimal.val (n : Decimal) : Rat :=
  (wholeVal n.whole : Rat) + (match n.frac with | none => 0 | some f => fracVal f)

/-- There is at least one digit. -/
def Decimal.Valid (n : Decimal) : Prop := n.whole ≠ [] ∨ ∃ f, n.frac = some f ∧ f ≠ []

/-- A part of a duration text. -/
structure DPart where
  sep : List Char
  num : Decimal
  gap : List Char
  unit : String
  size : Nat

def DPart.text (p : DPart) : List Char := p.sep ++ p.num.text ++ p.gap ++ p.unit.toList

structure DPart.Valid (p : DPart) : Prop where
  sep : IsSep p.sep
  num : p.num.Valid
  gap : IsSep p.gap
  gap_colon : p.gap.head? ≠ some ':'
  unit : (p.unit, p.size) ∈ durationUnits

/-- Microseconds of a part. -/
def DPart.val (p : DPart) : Rat := p.num.val * (p.size : Rat)

/-- A clock text at the end. -/
structure DClock where
  sep : List Char
  hours : List (Fin 10)
  minutes : List (Fin 10)
  seconds : Decimal

def DClock.text (c : DClock) : List Char :=
  c.sep ++ c.hours.map digit ++ ':' :: c.minutes.map digit ++ ':' :: c.seconds.text

structure DClock.Valid (c : DClock) : Prop where
  sep : IsSep c.sep
  hours : c.hours ≠ []
  minutes : c.minutes ≠ []
  seconds : c.seconds.Valid

def DClock.val (c : DClock) : Rat :=
  (wholeVal c.hours : Rat) * 3600000000 + (wholeVal c.minutes : Rat) * 60000000 + c.seconds.val * 1000000

/-- A whole duration text. -/
structure DText where
  signs : List Char
  parts : List DPart
  clock : Option DClock

def DText.text (t : DText) : List Char :=
  t.signs ++ (t.parts.flatMap DPart.text ++ (match t.clock with | none => [] | some c => c.text))

structure DText.Valid (t : DText) : Prop where
  signs : ∀ c ∈ t.signs, c = '+' ∨ c = '-'
  parts : ∀ p ∈ t.parts, p.Valid
  clock : ∀ c, t.clock = some c → c.Valid
  nonempty : t.parts ≠ [] ∨ t.clock ≠ none

/-- Microseconds of a text without its signs. -/
def DText.size (t : DText) : Rat :=
  (t.parts.map DPart.val).sum + (match t.clock with | none => 0 | some c => c.val)

/-- Microseconds of a text: an odd number of minus signs makes it negative. -/
def DText.val (t : DText) : Rat := if t.signs.count '-' % 2 = 1 then -t.size else t.size

/-- `d` is `x` rounded to the nearest integer, the even one of two. -/
def RoundsTo (x : Rat) (d : Int) : Prop :=
  |x - (d : Rat)| ≤ 1 / 2 ∧ (|x - (d : Rat)| = 1 / 2 → d % 2 = 0)

end Rocketry.Spec
