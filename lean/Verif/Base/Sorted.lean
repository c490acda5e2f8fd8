/-!
# Python's `sorted`

`sorted(xs, key=k)` is a stable sort.  Modelled by insertion from the right; the theorems below (permutation,
order, stability) determine the result, so the algorithm does not matter.
-/

namespace Rocketry

/-- Put `a` in front of the first element that may stand behind it. -/
def insertBy {α : Type} (le : α → α → Bool) (a : α) : List α → List α
  | [] => [a]
  | b :: l => if le a b then a :: b :: l else b :: insertBy le a l

/-- `sorted(xs, key=...)`: `le a b` says that `a` may stand before `b`. -/
def pySorted {α : Type} (le : α → α → Bool) : List α → List α
  | [] => []
  | a :: l => insertBy le a (pySorted le l)

variable {α : Type} {le : α → α → Bool}

theorem insertBy_perm (a : α) : ∀ l : List α, (insertBy le a l).Perm (a :: l)
  | [] => List.Perm.refl _
  | b :: l => by
    unfold insertBy
    split
    · exact List.Perm.refl _
    · exact ((insertBy_perm a l).cons b).trans (List.Perm.swap a b l)

theorem pySorted_perm : ∀ l : List α, (pySorted le l).Perm l
  | [] => List.Perm.refl _
  | a :: l => (insertBy_perm a _).trans ((pySorted_perm l).cons a)

theorem insertBy_pairwise (htrans : ∀ a b c, le a b = true → le b c = true → le a c = true)
    (htotal : ∀ a b, le a b = true ∨ le b a = true) (a : α) :
    ∀ l : List α, l.Pairwise (fun x y => le x y = true) → (insertBy le a l).Pairwise (fun x y => le x y = true)
  | [], _ => by simp [insertBy]
  | b :: l, h => by
    obtain ⟨h1, h2⟩ := List.pairwise_cons.1 h
    unfold insertBy
    split
    · rename_i hab
      refine List.pairwise_cons.2 ⟨?_, h⟩
      intro y hy
      rcases List.mem_cons.1 hy with rfl | hy
      · exact hab
      · exact htrans _ _ _ hab (h1 y hy)
    · rename_i hab
      refine List.pairwise_cons.2 ⟨?_, insertBy_pairwise htrans htotal a l h2⟩
      intro y hy
      rcases List.mem_cons.1 ((insertBy_perm a l).mem_iff.1 hy) with rfl | hy
      · rcases htotal b y with h | h
        · exact h
        · exact absurd h hab
      · exact h1 y hy

theorem pySorted_pairwise (htrans : ∀ a b c, le a b = true → le b c = true → le a c = true)
    (htotal : ∀ a b, le a b = true ∨ le b a = true) :
    ∀ l : List α, (pySorted le l).Pairwise (fun x y => le x y = true)
  | [] => List.Pairwise.nil
  | a :: l => insertBy_pairwise htrans htotal a _ (pySorted_pairwise htrans htotal l)

theorem insertBy_filter (p : α → Bool) (hp : ∀ a b, p a = true → p b = true → le a b = true) (a : α) :
    ∀ l : List α, (insertBy le a l).filter p = (a :: l).filter p
  | [] => rfl
  | b :: l => by
    unfold insertBy
    split
    · rfl
    · rename_i hab
      have ih := insertBy_filter p hp a l
      by_cases ha : p a = true
      · have hb : ¬ p b = true := fun hb => hab (hp a b ha hb)
        simp [List.filter_cons, ha, hb] at ih ⊢
        exact ih
      · simp [List.filter_cons, ha] at ih ⊢
        rw [ih]

/-- Stability: elements of equal key keep their order. -/
theorem pySorted_stable (p : α → Bool) (hp : ∀ a b, p a = true → p b = true → le a b = true) :
    ∀ l : List α, (pySorted le l).filter p = l.filter p
  | [] => rfl
  | a :: l => by
    rw [pySorted, insertBy_filter p hp, List.filter_cons, List.filter_cons, pySorted_stable p hp l]

end Rocketry
