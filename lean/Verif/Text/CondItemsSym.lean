import Verif.Text.RegexSym
import Verif.Text.CondItems

/-!
# Looking up texts with unknown parts in the table
-/

namespace Rocketry

/-- The entry found for every instance of a shape, when that can be decided. -/
def symFind : Table → Shape → Option (Handler × List (String × Shape))
  | [], _ => none
  | (p, h) :: t, st => if refute p st then symFind t st else (sym p st).map (fun g => (h, g))

theorem symFind_sound {σ : Nat → List Char} {st : Shape} (hg : Good σ st) : ∀ {t : Table} {h : Handler}
    {g : List (String × Shape)}, symFind t st = some (h, g) → findParser t (inst σ st) = some (h, instG σ g) := by
  intro t
  induction t with
  | nil => intro h g hf; cases hf
  | cons x t ih =>
    intro h g hf
    obtain ⟨p, h'⟩ := x
    rw [symFind] at hf
    rw [findParser]
    by_cases hr : refute p st = true
    · rw [if_pos hr] at hf
      rw [refute_sound hg hr]
      exact ih hf
    · rw [if_neg hr] at hf
      simp only [Option.map_eq_some_iff, Prod.mk.injEq] at hf
      obtain ⟨g', h1, h2, h3⟩ := hf
      rw [sym_sound hg h1]
      simp only [h2, h3]

/-- No entry matches an instance of the shape. -/
theorem findParser_none {σ : Nat → List Char} {st : Shape} (hg : Good σ st) {t : Table}
    (h : t.all (fun e => refute e.1 st) = true) : findParser t (inst σ st) = none := by
  induction t with
  | nil => rfl
  | cons x t ih =>
    simp only [List.all_cons, Bool.and_eq_true] at h
    rw [findParser, refute_sound hg h.1]
    exact ih h.2

end Rocketry
