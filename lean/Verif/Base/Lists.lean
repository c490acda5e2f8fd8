/-!
# Induction over lists from the end
-/

namespace Rocketry

/-- Induction over lists, adding elements at the end. -/
theorem snoc_ind {α : Type} {P : List α → Prop} (nil : P []) (snoc : ∀ l a, P l → P (l ++ [a])) (l : List α) : P l := by
  have key : ∀ l : List α, P l.reverse := by
    intro l
    induction l with
    | nil => exact nil
    | cons a l ih => rw [List.reverse_cons]; exact snoc _ _ ih
  have := key l.reverse
  rwa [List.reverse_reverse] at this

end Rocketry
