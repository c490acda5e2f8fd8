import Verif.Task.RecordText

/-!
# What a log record should tell
-/

namespace Rocketry.Spec
open Rocketry.RecordText

/-- The text of the exception in whose handling the record was made, if it is made for it. -/
def traceOf {E : Type} (tb : E → List Char) : LogCall E → Option (List Char)
  | .exception e => some (tb e)
  | _ => none

/-- A text that ends a line. -/
def EndsLine (s : List Char) : Prop := ∃ l, s = l ++ ['\n']

/-- What a handler shows: the message is the message and the exception is the exception; the formatted text is the formatted
message, with the exception in the lines after it. -/
def TextTold {E : Type} (msg : List Char) (trace : Option (List Char)) (f : Fmt E) (x : Shown E) : Prop :=
  x.record.message = some msg ∧ x.record.excText = trace
  ∧ (trace = none → x.text = f.message msg)
  ∧ (∀ t, trace = some t → EndsLine (f.message msg) → x.text = f.message msg ++ t)
  ∧ (∀ t, trace = some t → ¬ EndsLine (f.message msg) → x.text = f.message msg ++ '\n' :: t)

end Rocketry.Spec
