import Verif.Spec.QuerySpec

/-!
# Questions that have a keyword form
-/

namespace Rocketry.Spec
open Rocketry.Query

/-- A question about a field: which field, what is asked, and the value. -/
structure Question where
  field : String
  ask : Ask
  val : Val

/-- The question as a comparison, with the key on the left. -/
def Question.expr (q : Question) : Expr := match q.ask with
  | .same => .cmp .eq (.key q.field) (.val q.val)
  | .min => .cmp .ge (.key q.field) (.val q.val)
  | .max => .cmp .le (.key q.field) (.val q.val)
  | .differs => .cmp .ne (.key q.field) (.val q.val)
  | .regex => .regex q.field q.val

/-- The record answers the question. -/
def Question.Sat (i : Item) (q : Question) : Prop := ∃ w, Dict.find i q.field = some w ∧ Meets (fun _ _ => false) q.val w q.ask

/-- Each field is asked for one value, or for at most one lower and at most one upper bound. -/
structure OncePerField (qs : List Question) : Prop where
  plain : ∀ q ∈ qs, q.ask = .same ∨ q.ask = .min ∨ q.ask = .max
  once : qs.Pairwise fun q r => q.field = r.field → q.ask ≠ r.ask ∧ q.ask ≠ .same ∧ r.ask ≠ .same

/-- The record has all the fields of the keywords, with values as asked. -/
def KeywordsSat (kw : Dict Filter) (i : Item) : Prop := ∀ k f, Dict.find kw k = some f → FilterSat i k f

/-- Keywords that ask for a value or a bound. -/
def PlainFilter : Filter → Prop
  | .is _ => True
  | .range lo hi => lo ≠ none ∨ hi ≠ none
  | .oneOf _ => False

/-- A comparison (equal, at least, at most) of one field with one value, on either side. -/
def OneQuestion (e : Expr) : Prop := ∃ (op : Op) (k : String) (v : Val), (op = .eq ∨ op = .ge ∨ op = .le) ∧
  (e = .cmp op (.key k) (.val v) ∨ e = .cmp op (.val v) (.key k))

end Rocketry.Spec
