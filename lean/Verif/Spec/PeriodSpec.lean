import Verif.Time.Period

/-!
# Specification of compound periods: which instants belong to them
-/

namespace Rocketry.Spec

/-- The instants a period is meant to contain: intersections and unions pointwise, `[s, e)` for a static
interval.  The sliding periods have no fixed instants (`False`; they are excluded by `Plain`). -/
def sem : Period → Int → Prop
  | .anchored a, t => a.contains t = true
  | .static s e, t => s ≤ t ∧ t < e
  | .always, t => MINT ≤ t ∧ t < MAXT
  | .delta _ _, _ => False
  | .span _ _, _ => False
  | .relday _ _ _, _ => False
  | .all ps, t => ∀ p, p ∈ ps → sem p t
  | .any ps, t => ∃ p, ∃ _ : p ∈ ps, sem p t
termination_by p => sizeOf p
decreasing_by
  all_goals
    have := List.sizeOf_lt_of_mem ‹_ ∈ _›
    simp only [Period.all.sizeOf_spec, Period.any.sizeOf_spec]
    omega

/-- Built from clock, static and always periods only, all clock bounds non-negative (the constructor rejects
others, `C02_constructor`). -/
def Plain : Period → Prop
  | .anchored a => 0 ≤ a.start ∧ 0 ≤ a.stop
  | .static _ _ => True
  | .always => True
  | .delta _ _ => False
  | .span _ _ => False
  | .relday _ _ _ => False
  | .all ps => ∀ p, p ∈ ps → Plain p
  | .any ps => ∀ p, p ∈ ps → Plain p
termination_by p => sizeOf p
decreasing_by
  all_goals
    have := List.sizeOf_lt_of_mem ‹_ ∈ _›
    simp only [Period.all.sizeOf_spec, Period.any.sizeOf_spec]
    omega

/-- No static interval inside ends exactly at `t`. -/
def NoEnd (t : Int) : Period → Prop
  | .static _ e => e ≠ t
  | .all ps => ∀ p, p ∈ ps → NoEnd t p
  | .any ps => ∀ p, p ∈ ps → NoEnd t p
  | _ => True
termination_by p => sizeOf p
decreasing_by
  all_goals
    have := List.sizeOf_lt_of_mem ‹_ ∈ _›
    simp only [Period.all.sizeOf_spec, Period.any.sizeOf_spec]
    omega

/-- No static interval inside a union ends exactly at `t`. -/
def Clean (t : Int) : Period → Prop
  | .all ps => ∀ p, p ∈ ps → Clean t p
  | .any ps => ∀ p, p ∈ ps → NoEnd t p
  | _ => True
termination_by p => sizeOf p
decreasing_by
  all_goals
    have := List.sizeOf_lt_of_mem ‹_ ∈ _›
    simp only [Period.all.sizeOf_spec, Period.any.sizeOf_spec]
    omega

end Rocketry.Spec
